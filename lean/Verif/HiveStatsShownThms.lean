import Verif.HiveStatsShown

/-! # Statistics in Recap's own format: C119 -/

set_option autoImplicit false

namespace Recap.Hive

open RType Recap.Spec Relational Hive.Spec

theorem parse_union {x : Attrs} {h : HType} {t : RType} (hv : h ≠ .prim .void) (hu : ∀ ts, h ≠ .union ts)
    (hp : Hive.parse x h = .ok t) : ∃ ts a, t = .union ts a ∧ Dict.get? a.extra "default" ≠ .none := by
  have := parse_optional hv hu hp
  cases t with
  | union ts a =>
    refine ⟨ts, a, rfl, fun h => ?_⟩
    simp [Recap.Json.isOptionalField, RType.isOptional, Dict.has, h] at this
  | _ => cases this

theorem settle_nodup (ns : List (PyVal × Nat)) (i : Nat) : ∀ (cs : List ColumnStats) (f : RType), f.attrs.extra.keys.Nodup →
    (settle ns i cs f).attrs.extra.keys.Nodup
  | [], f, h => h
  | c :: cs, f, h => by
    rw [settle]
    refine settle_nodup ns i cs _ ?_
    split
    · split
      · unfold addStats
        rw [attrs_withAttrs]
        have hu : ∀ (e d : Dict), d.keys.Nodup → (Dict.update d e).keys.Nodup := by
          intro e
          induction e with
          | nil => intro d hd; exact hd
          | cons kv e ih => intro d hd; exact ih _ (Dict.nodup_keys_set _ _ hd)
        simp only
        split
        · exact Dict.nodup_keys_set _ _ (hu _ _ h)
        · exact hu _ _ h
      · exact h
    · exact h

theorem says_key {s : Stats} {k : String} {v : PyVal} (h : Says s k v) :
    k ∈ ["low", "high", "cardinality", "average_length", "max_length", "true_count", "false_count", "null_count"] := by
  cases h <;> simp

/-- **C119 is false of Recap's own format, whatever the table.**  A column that is neither void nor of a union type
and has statistics is shown without its name. -/
theorem C119_names_refuted (table : HTable) (cs : List ColumnStats) (t : RType) (live : Registry) (d : Dict)
    (h : clientSchema table cs true = .ok t) (hs : Commands.convert live t .recap = .ok (.dict d)) :
    ∃ ys, Dict.get? d "fields" = some (.list ys) ∧ ys.length = table.columns.length ∧
      ∀ (i : Nat) c, table.columns[i]? = some c → c.type ≠ .prim .void → (∀ ts, c.type ≠ .union ts) → LastOfName table.columns i c.name →
        (∃ k v, Latest cs c.name k v) → ∃ y, ys[i]? = some y ∧ ∀ f, y = .dict f → Dict.get? f "name" = .none := by
  obtain ⟨fs, fs', a, h1, rfl, h2, h3⟩ := clientSchema_ok h
  obtain ⟨fs0, fs0', a0, e1, e2, e3, e4, e5⟩ := C118_statistics table cs _ h
  cases e2
  have e1' : clientSchema table cs false = toRecap table := by
    unfold clientSchema
    cases toRecap table <;> rfl
  rw [e1', h1] at e1
  cases e1
  obtain ⟨_, -, e⟩ := hive_ok h1
  cases e
  have hd : toDict true true (.struct fs' { extra := [("name", .str table.name)] }) = .ok (.dict d) := by
    cases Commands.convert_iff.mp hs with
    | recap h => exact h
  obtain ⟨ys, g1, g2, g3⟩ := toDict_struct hd (by simp [Dict.keys]) rfl
  refine ⟨ys, g1, by omega, ?_⟩
  rintro i c hc hv hnu hl ⟨k, v, hk⟩
  have hi : i < fs.length := by
    have := (List.getElem?_eq_some_iff.mp hc).1
    omega
  have hf : fs[i]? = some fs[i] := List.getElem?_eq_getElem hi
  obtain ⟨i4, i5⟩ := loadAll_ok h3
  have hf' : fs'[i]? = some (settle (places 0 table.columns) i cs fs[i]) := by rw [i5, hf]; rfl
  obtain ⟨x, hx, hget⟩ := e5 i _ _ c hf hf' hc
  have hall := parseColumns_h (P := fun _ => True) (N := fun _ => True) trivial _ _ h2 (fun _ _ => trivial)
    (fun c _ => ⟨trivial, fieldNames_true _⟩) fs[i] (List.getElem_mem _)
  obtain ⟨c', hc', hp⟩ := parseColumns_at h2 hf
  rw [hc] at hc'
  cases hc'
  obtain ⟨ts, b, hu, hdef⟩ := parse_union hv hnu hp
  have hpiece := hall.2.1 fs[i] .refl
  obtain ⟨rest, rfl, -, -, hext, -⟩ := hpiece.union ts b hu
  have hnod : fs[i].attrs.extra.keys.Nodup := by
    rw [hu]
    show b.extra.keys.Nodup
    generalize b.extra = e at hext
    cases hext <;> simp [Dict.keys]
  have hnod' := settle_nodup (places 0 table.columns) i cs fs[i] hnod
  rw [hx, attrs_withAttrs] at hnod'
  have hsk : ∃ s, Says s k v := by obtain ⟨_, s, _, -, h, -⟩ := hk; exact ⟨s, h⟩
  have hother : ∀ j, j ∉ ["low", "high", "cardinality", "average_length", "max_length", "true_count", "false_count", "null_count"] →
      Dict.get? x j = Dict.get? b.extra j := by
    intro j hj
    rw [(hget j).2 (fun _ w hw => by
      obtain ⟨_, s, _, -, h, -⟩ := hw
      exact hj (says_key h)), hu]
    rfl
  refine g3 i _ hf' ?_ |>.imp fun y hy => ⟨hy.1, fun f e => (hy.2 f e).1⟩
  intro w hw
  rw [hx, hu] at hw
  obtain ⟨s, hsk⟩ := hsk
  refine toDict_loses (k := k) hw (List.mem_cons_self ..) hnod' ?_ ?_ ?_ ?_
  · intro j hj
    simp only [List.mem_cons, List.not_mem_nil, or_false] at hj
    have : Dict.get? b.extra j = .none := by
      rw [Dict.get?_eq_none_iff]
      intro hm
      rcases hext.keys_of j hm with rfl | rfl <;> simp at hj
    rcases hj with rfl | rfl | rfl <;> rw [hother _ (by decide), this]
  · rw [hother _ (by decide)]
    exact hdef
  · rw [(hget k).1 v hl hk]
    simp
  · have := says_key hsk
    simp only [List.mem_cons, List.not_mem_nil, or_false] at this
    rcases this with rfl | rfl | rfl | rfl | rfl | rfl | rfl | rfl <;> decide

/-- The hypotheses hold for a table with two columns, one with statistics. -/
example : ∃ t d, clientSchema { name := "t", columns := [{ name := "n", type := .prim .int }, { name := "s", type := .prim .string }] }
      [⟨"n", some (.other (.int 7))⟩] true = .ok t ∧ Commands.convert newRegistry t .recap = .ok (.dict d) ∧
    LastOfName [{ name := "n", type := .prim .int }, { name := "s", type := .prim .string }] 0 "n" ∧
    Latest [⟨"n", some (.other (.int 7))⟩] "n" "null_count" (.int 7) :=
  ⟨_, _, rfl, rfl, by
    intro j c hj hc
    match j, hj with
    | 1, _ => cases hc; decide
    | j + 2, _ => simp at hc,
   latest_iff.mp rfl⟩

/-- **C119 is false of Recap's own format.**  The command shows the statistics of a nullable column but not its name, and
whoever reads the schema gets a column without a name and without a default. -/
theorem C119_recap_refuted : ∃ table cs t d ts a b f fs ts' a',
    clientSchema table cs true = .ok t ∧ t = .struct [.union ts a] b ∧ Dict.get? a.extra "name" = some (.str "n") ∧
    Commands.convert newRegistry t .recap = .ok (.dict d) ∧ Dict.get? d "fields" = some (.list [.dict f]) ∧
    Dict.get? f "null_count" = some (.int 7) ∧ Dict.get? f "name" = .none ∧
    Recap.parse (.dict d) = .ok (.struct fs b) ∧ fs = [.union ts' a'] ∧
    Dict.get? a'.extra "name" = .none ∧ Dict.get? a'.extra "default" = .none :=
  ⟨{ name := "t", columns := [{ name := "n", type := .prim .int }] }, [⟨"n", some (.other (.int 7))⟩], _, _, _, _, _, _, _,
    [.null {}, .proxy .none { alias := .str "int32" }], { extra := [("null_count", .int 7)] },
    rfl, rfl, rfl, rfl, rfl, rfl, rfl, rfl, rfl, rfl, rfl⟩

end Recap.Hive
