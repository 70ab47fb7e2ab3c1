import Verif.NestedRowsThms

/-!
# C147: unions in Hive tables

Rows of tables with columns of union types, whose members are told apart in JSON.
-/

set_option autoImplicit false

namespace Recap.NestedRows

open RType Recap.Values Recap.Spec Recap.Rows
open Recap.JsonData
open Recap.Json (Writable convertF)
open Recap.Json.Spec (nameOf OptionalField)
open Recap.Commands.Spec (Named NamedAll FieldNames)
open Recap.Relational (bind_ok)
open Recap.Hive (HType)

/-! ## Specification -/

/-- What distinguishes the values of a type in JSON: they are booleans, numbers, strings, arrays or objects. -/
def jsonKind : HType → Option String
  | .prim .boolean => some "boolean"
  | .prim .byte | .prim .short | .prim .int | .prim .long | .prim .float | .prim .double | .prim .date | .prim .timestamp
  | .prim .timestampLocalTz => some "number"
  | .prim .string | .prim .binary | .prim .intervalYearMonth | .prim .intervalDayTime => some "string"
  | .decimal .. | .varchar _ | .char _ => some "string"
  | .list _ => some "array"
  | .map .. | .struct _ => some "object"
  | _ => .none

/-- A union of types whose values are of different kinds, without further unions. -/
def Separate (h : HType) : Prop :=
  ∃ ts, h = .union ts ∧ (∀ t ∈ ts, Common t) ∧ (ts.map jsonKind).Nodup

/-! ## Members -/

theorem kindOf_withAttrs {b : RType} {a : Attrs} : kindOf (b.withAttrs a) = kindOf b := by cases b <;> rfl

theorem kindOf_flatten {b : RType} : kindOf (Hive.flatten b) = kindOf b := by
  cases b <;> simp [Hive.flatten, kindOf]

theorem pyEq_kind {u v : RType} (h : kindOf u ≠ kindOf v) : pyEq u v = false := by
  cases u <;> cases v <;> first | (exact absurd rfl h) | simp [pyEq]

/-- The type `t`, which is optional, is read for `h`, and the values of its flattened member `b` are those of `h`. -/
structure FlatRead (live : Registry) (h : HType) (t b : RType) (a : Attrs) : Prop where
  pair : t = .union [.null {}, b] a
  default : "default" ∈ Dict.keys a.extra
  kind : kindOf b = jsonKind h
  some : (kindOf b).isSome
  value : b.isNull = false
  distinct : Distinct (Hive.flatten b)
  shaped : ∀ x j, HiveStored (fun _ _ => True) h x → Solid x → x ≠ .null → HiveWritten true h x j → Shaped live (Hive.flatten b) j

theorem flat_finish {live : Registry} {h : HType} {b : RType} (h1 : b.isUnion = false) (h2 : b.isNull = false)
    (hk : kindOf b = jsonKind h) (hs : (kindOf b).isSome) (hd : ∀ a, Distinct (Hive.flatten (b.withAttrs a)))
    (hsh : ∀ a x j, HiveStored (fun _ _ => True) h x → Solid x → x ≠ .null → HiveWritten true h x j →
      Shaped live (Hive.flatten (b.withAttrs a)) j) :
    ∃ b' a, FlatRead live h (Hive.finish b) b' a := by
  obtain ⟨a, a', e, hdf⟩ := finish_pair h1 h2
  refine ⟨_, _, e, hdf, ?_, ?_, ?_, hd a, hsh a⟩
  · rw [kindOf_withAttrs, hk]
  · rw [kindOf_withAttrs]; exact hs
  · cases b <;> first | (cases h2; done) | rfl

theorem flatten_pair {b : RType} {a : Attrs} (hb : (kindOf b).isSome) (hv : b.isNull = false) :
    Hive.flatten (.union [.null {}, b] a) = .union [.null {}, Hive.flatten b] a := by
  have hne : kindOf (.null {}) ≠ kindOf (Hive.flatten b) := by
    rw [kindOf_flatten]
    intro e
    cases b <;> first | (cases hv; done) | (cases hb; done) | (simp [kindOf] at e)
  have hnb := pyEq_kind hne
  rw [Hive.flatten, Hive.flattenAll, Hive.flattenAll, Hive.flattenAll, List.foldl_cons, List.foldl_cons, List.foldl_nil]
  have e2 : Hive.absorb [] (Hive.flatten (.null {})) = [.null {}] := rfl
  rw [e2]
  have hk : (kindOf (Hive.flatten b)).isSome := by rw [kindOf_flatten]; exact hb
  generalize Hive.flatten b = c at hnb hk
  cases c <;> first | (cases hk; done) | simp [Hive.absorb, hnb]

theorem flat_reads {live : Registry} {h : HType} {t b : RType} {a : Attrs} (hr : FlatRead live h t b a) :
    Reads live h (Hive.flatten t) ∧ nameOf (Hive.flatten t) = nameOf t := by
  obtain ⟨rfl, hd, hk, hs, hv, hdist, hsh⟩ := hr
  rw [flatten_pair hs hv]
  have hk' := kindOf_flatten (b := b)
  have hn : (Hive.flatten b).isNull = false := by
    generalize Hive.flatten b = c at hk'
    cases c <;> first | rfl | (cases b <;> first | (cases hv; done) | (simp [kindOf] at hk'))
  have hu : ∀ ts a, Hive.flatten b ≠ .union ts a := by
    intro ts a e
    rw [e] at hk'
    rw [← hk'] at hs
    cases hs
  have hp : (Hive.flatten b).isProxy = false := by
    generalize Hive.flatten b = c at hk'
    cases c <;> first | rfl | (rw [← hk'] at hs; cases hs)
  exact ⟨⟨pair_distinct hn hd hdist, pair_of hu hp hn hd, fun x j hx h1 h2 hj => (pair_shaped hn hd).mpr (hsh x j hx h1 h2 hj)⟩, rfl⟩

theorem flattenAll_length : ∀ ts : List RType, (Hive.flattenAll ts).length = ts.length
  | [] => by rw [Hive.flattenAll]
  | t :: ts => by rw [Hive.flattenAll, List.length_cons, List.length_cons, flattenAll_length ts]

theorem flattenAll_get : ∀ (ts : List RType) (i : Nat) (u : RType), (Hive.flattenAll ts)[i]? = some u →
    ∃ t, ts[i]? = some t ∧ u = Hive.flatten t
  | [], i, u, h => by simp [Hive.flattenAll] at h
  | t :: ts, 0, u, h => by
    rw [Hive.flattenAll] at h
    cases h
    exact ⟨t, rfl, rfl⟩
  | t :: ts, i + 1, u, h => by
    rw [Hive.flattenAll] at h
    exact flattenAll_get ts i u (by simpa using h)

/-- What is read for a type without unions and voids, after flattening. -/
theorem reads_flat (live : Registry) {h : HType} (hc : Common h) : ∀ {x : Attrs} {t : RType}, Hive.Given x → Hive.parse x h = .ok t →
    ∃ b a, FlatRead live h t b a := by
  induction hc with
  | @prim c hv =>
    intro x t _ hp
    rw [Hive.parse] at hp
    obtain ⟨b, h1, hp⟩ := bind_ok hp
    cases hp
    cases c <;> cases h1 <;> first
      | exact absurd rfl hv
      | (refine flat_finish rfl rfl rfl rfl (fun _ => ?_) ?_
         · first | exact .bool | exact .int | exact .float | exact .string | exact .bytes
         · intro a y j hy _ hy2 hj
           cases hy with
           | null => exact absurd rfl hy2
           | prim hy _ =>
             cases hj with
             | null => exact absurd rfl hy2
             | prim hj =>
               cases hy <;> cases hj <;>
                 first | exact .bool | exact .int | exact .float | exact .whole | exact .string | exact .bytes)
  | decimal =>
    intro x t _ hp
    rw [Hive.parse] at hp
    split at hp
    · cases hp
    · cases hp
      refine flat_finish rfl rfl rfl rfl (fun _ => .bytes) ?_
      intro a y j hy _ hy2 hj
      cases hy with
      | null => exact absurd rfl hy2
      | decimal =>
        cases hj with
        | decimal hj => cases hj; exact .bytes
  | varchar =>
    intro x t _ hp
    rw [Hive.parse] at hp
    cases hp
    refine flat_finish rfl rfl rfl rfl (fun _ => .string) ?_
    intro a y j hy _ hy2 hj
    cases hy with
    | null => exact absurd rfl hy2
    | varchar =>
      cases hj with
      | varchar hj => cases hj; exact .string
  | char =>
    intro x t _ hp
    rw [Hive.parse] at hp
    cases hp
    refine flat_finish rfl rfl rfl rfl (fun _ => .string) ?_
    intro a y j hy _ hy2 hj
    cases hy with
    | null => exact absurd rfl hy2
    | char =>
      cases hj with
      | char hj => cases hj; exact .string
  | map _ ih =>
    intro x t _ hp
    rw [Hive.parse] at hp
    obtain ⟨k, -, hp⟩ := bind_ok hp
    obtain ⟨v, h2, hp⟩ := bind_ok hp
    cases hp
    obtain ⟨b, a, hb⟩ := ih Hive.given_empty h2
    have hr := (flat_reads hb).1
    refine flat_finish rfl rfl rfl rfl (fun a => ?_) ?_
    · rw [RType.withAttrs, Hive.flatten]
      exact .map hr.distinct
    intro a y j hy hy1 hy2 hj
    rw [RType.withAttrs, Hive.flatten]
    cases hy with
    | null => exact absurd rfl hy2
    | @map _ _ ps _ hvs =>
      cases hj with
      | @map _ _ _ o hl hj =>
        cases hy1 with
        | map hn hs =>
          refine .map fun kv hkv => ?_
          obtain ⟨i, hi, rfl⟩ := List.getElem_of_mem hkv
          have hm : ps[i]'(by omega) ∈ ps := List.getElem_mem _
          exact hr.shaped _ _ (hvs _ hm) (hs _ hm) (hn _ hm)
            (hj i _ _ (List.getElem?_eq_getElem _) (List.getElem?_eq_getElem _))
  | list _ ih =>
    intro x t _ hp
    rw [Hive.parse] at hp
    obtain ⟨e, h1, hp⟩ := bind_ok hp
    cases hp
    obtain ⟨b, a, hb⟩ := ih Hive.given_empty h1
    have hr := (flat_reads hb).1
    refine flat_finish rfl rfl rfl rfl (fun a => ?_) ?_
    · rw [RType.withAttrs, Hive.flatten]
      exact .list hr.distinct
    intro a y j hy hy1 hy2 hj
    rw [RType.withAttrs, Hive.flatten]
    cases hy with
    | null => exact absurd rfl hy2
    | @list _ vs hvs =>
      cases hj with
      | @list _ _ js hl hj =>
        cases hy1 with
        | list hn hs =>
          refine .list fun z hz => ?_
          obtain ⟨i, hi, rfl⟩ := List.getElem_of_mem hz
          have hm : vs[i]'(by omega) ∈ vs := List.getElem_mem _
          exact hr.shaped _ _ (hvs _ hm) (hs _ hm) (hn _ hm)
            (hj i _ _ (List.getElem?_eq_getElem _) (List.getElem?_eq_getElem _))
  | @struct fs _ ih =>
    intro x t _ hp
    rw [Hive.parse] at hp
    obtain ⟨ts, h1, hp⟩ := bind_ok hp
    cases hp
    obtain ⟨hl, hi⟩ := parseFields_index h1
    have hr : ∀ (i : Nat) f t, fs[i]? = some f → (Hive.flattenAll ts)[i]? = some t →
        nameOf t = some (.str f.1) ∧ Reads live f.2 t := by
      intro i f t hf ht
      obtain ⟨t, ht', rfl⟩ := flattenAll_get ts i t ht
      have e := hi i f t hf ht'
      obtain ⟨b, a, hb⟩ := ih f (List.mem_of_getElem? hf) (Hive.given_column ..) e
      obtain ⟨h2, h3⟩ := flat_reads hb
      exact ⟨by rw [h3, Hive.parse_nameOf (Hive.given_column ..) e]; rfl, h2⟩
    have hl' : (Hive.flattenAll ts).length = fs.length := by rw [flattenAll_length, hl]
    refine flat_finish rfl rfl rfl rfl (fun a => ?_) (fun a y j hy hy1 hy2 hj => ?_)
    · rw [RType.withAttrs, Hive.flatten]
      refine .struct fun u hu => ?_
      obtain ⟨i, hi', rfl⟩ := List.getElem_of_mem hu
      exact (hr i _ _ (List.getElem?_eq_getElem (by omega)) (List.getElem?_eq_getElem hi')).2.distinct
    · rw [RType.withAttrs, Hive.flatten]
      exact struct_shaped hl' hr hy hy1 hy2 hj

/-- A member is taken up if nothing of its kind is there. -/
theorem absorb_pair {acc : List RType} {b : RType} {a : Attrs} (hn : .null {} ∈ acc) (hk : kindOf b ∉ acc.map kindOf) :
    Hive.absorb acc (.union [.null {}, b] a) = acc ++ [b] := by
  have hb' : acc.any (fun u => pyEq u b) = false := by
    rw [List.any_eq_false]
    intro u hu
    rw [pyEq_kind]
    · simp
    · intro e
      exact hk (e ▸ List.mem_map_of_mem hu)
  have hn' : acc.any (fun u => pyEq u (.null {})) = true := List.any_eq_true.mpr ⟨_, hn, by rfl⟩
  simp [Hive.absorb, hb', hn']

/-- What becomes of the members of a union. -/
theorem absorb_members (live : Registry) : ∀ (ts : List HType) (us acc : List RType), Hive.parseAll ts = .ok us →
    (∀ t ∈ ts, Common t) → .null {} ∈ acc → (acc.map kindOf ++ ts.map jsonKind).Nodup →
    ∃ bs, (Hive.flattenAll us).foldl Hive.absorb acc = acc ++ bs ∧ bs.map kindOf = ts.map jsonKind ∧
      (∀ b ∈ bs, Distinct b ∧ (kindOf b).isSome) ∧ ∀ t ∈ ts, ∃ b ∈ bs, b.isNull = false ∧
        ∀ x j, HiveStored (fun _ _ => True) t x → Solid x → x ≠ .null → HiveWritten true t x j → Shaped live b j
  | [], us, acc, h, _, _, _ => by
    rw [Hive.parseAll] at h
    cases h
    exact ⟨[], by simp [Hive.flattenAll], rfl, by simp, by simp⟩
  | t :: ts, us, acc, h, hs, hn, hd => by
    rw [Hive.parseAll] at h
    obtain ⟨u, h1, h⟩ := bind_ok h
    obtain ⟨us', h2, h⟩ := bind_ok h
    cases h
    obtain ⟨b, a, hb⟩ := reads_flat live (hs t (List.mem_cons_self ..)) Hive.given_empty h1
    have hkf : kindOf (Hive.flatten b) = jsonKind t := by rw [kindOf_flatten, hb.kind]
    have hvf : (Hive.flatten b).isNull = false := by
      have hv := hb.value
      cases b <;> simp [Hive.flatten, isNull] at hv ⊢
    rw [List.map_cons, ← hkf] at hd
    have hk : kindOf (Hive.flatten b) ∉ acc.map kindOf := fun hm =>
      (List.nodup_append.mp hd).2.2 _ hm _ (List.mem_cons_self ..) rfl
    obtain ⟨bs, e, hkinds, hds, hall⟩ := absorb_members live ts us' (acc ++ [Hive.flatten b]) h2
      (fun t' ht' => hs t' (List.mem_cons_of_mem _ ht')) (List.mem_append_left _ hn) (by simpa using hd)
    refine ⟨Hive.flatten b :: bs, ?_, by simp [hkinds, hkf], ?_, ?_⟩
    · rw [Hive.flattenAll, List.foldl_cons, hb.pair, flatten_pair hb.some hb.value, absorb_pair hn hk, e]
      simp
    · intro c hc
      rcases List.mem_cons.mp hc with rfl | hc
      · exact ⟨hb.distinct, by rw [kindOf_flatten]; exact hb.some⟩
      · exact hds c hc
    · intro t' ht'
      rcases List.mem_cons.mp ht' with rfl | ht'
      · exact ⟨_, List.mem_cons_self .., hvf, hb.shaped⟩
      · obtain ⟨c, hc, h⟩ := hall t' ht'
        exact ⟨c, List.mem_cons_of_mem _ hc, h⟩

/-! ## How values of unions are written -/

/-- A value that is written like one without parts is written like one of its type. -/
theorem written_hive {h : HType} (hc : Common h) : ∀ {x : Val} {j : PyVal}, HiveStored (fun _ _ => True) h x → Written x j →
    HiveWritten true h x j := by
  induction hc with
  | prim => exact fun _ hj => .prim hj
  | decimal => exact fun _ hj => .decimal hj
  | varchar => exact fun _ hj => .varchar hj
  | char => exact fun _ hj => .char hj
  | map =>
    intro x j hx hj
    cases hx with
    | null => cases hj; exact .null
    | map => cases hj
  | list _ ih =>
    intro x j hx hj
    cases hx with
    | null => cases hj; exact .null
    | list hx =>
      cases hj with
      | list hl hj => exact .list hl fun i y k hy hk => ih (hx y (List.mem_of_getElem? hy)) (hj i y k hy hk)
  | struct =>
    intro x j hx hj
    cases hx with
    | null => cases hj; exact .null
    | struct => cases hj

theorem nodup_same {ts : List HType} (h : (ts.map jsonKind).Nodup) {t t' : HType} (ht : t ∈ ts) (ht' : t' ∈ ts)
    (e : jsonKind t = jsonKind t') : t = t' := by
  obtain ⟨i, hi, rfl⟩ := List.getElem_of_mem ht
  obtain ⟨j, hj, rfl⟩ := List.getElem_of_mem ht'
  have : i = j := by
    have hij := List.pairwise_iff_getElem.mp h
    rcases Nat.lt_trichotomy i j with hlt | heq | hgt
    · exact absurd (by rw [List.getElem_map, List.getElem_map]; exact e) (hij i j (by simpa using hi) (by simpa using hj) hlt)
    · exact heq
    · exact absurd (by rw [List.getElem_map, List.getElem_map]; exact e.symm) (hij j i (by simpa using hj) (by simpa using hi) hgt)
  subst this
  rfl

/-- A value that is stored as one member of the union is written like one of it. -/
theorem member_written {ts : List HType} {t t' : HType} {x : Val} {j : PyVal} (hd : (ts.map jsonKind).Nodup)
    (hc : ∀ t ∈ ts, Common t) (ht : t ∈ ts) (ht' : t' ∈ ts) (hx : HiveStored (fun _ _ => True) t x)
    (hj : HiveWritten true t' x j) : HiveWritten true t x j := by
  cases hj with
  | null => exact .null
  | prim h => exact written_hive (hc _ ht) hx h
  | decimal h => exact written_hive (hc _ ht) hx h
  | varchar h => exact written_hive (hc _ ht) hx h
  | char h => exact written_hive (hc _ ht) hx h
  | map h1 h2 =>
    have := nodup_same hd ht ht' (by
      cases hx with
      | prim h => cases h
      | map => rfl
      | union => cases hc _ ht)
    subst this
    exact .map h1 h2
  | list h1 h2 =>
    have := nodup_same hd ht ht' (by
      cases hx with
      | prim h => cases h
      | list => rfl
      | union => cases hc _ ht)
    subst this
    exact .list h1 h2
  | struct h1 h2 =>
    have := nodup_same hd ht ht' (by
      cases hx with
      | prim h => cases h
      | struct => rfl
      | union => cases hc _ ht)
    subst this
    exact .struct h1 h2
  | union => cases hc _ ht'

/-- What is read for a column with a union. -/
theorem reads_separate (live : Registry) {h : HType} (hc : Separate h) {x : Attrs} {t : RType} (hp : Hive.parse x h = .ok t) :
    Distinct t ∧ ∀ y j, HiveStored (fun _ _ => True) h y → Solid y → y ≠ .null → HiveWritten true h y j → Shaped live t j := by
  obtain ⟨ts, rfl, hs, hd⟩ := hc
  rw [Hive.parse] at hp
  obtain ⟨us, h1, hp⟩ := bind_ok hp
  cases hp
  have hnone : ∀ t ∈ ts, jsonKind t ≠ some "null" := by
    intro t ht e
    unfold jsonKind at e
    split at e <;> simp at e
  obtain ⟨bs, e, hkinds, hds, hall⟩ := absorb_members live ts us [.null {}] h1 hs (List.mem_cons_self ..) (by
    simp only [List.map_cons, List.map_nil, List.cons_append, List.nil_append, List.nodup_cons]
    refine ⟨?_, hd⟩
    intro hm
    obtain ⟨t, ht, e⟩ := List.mem_map.mp hm
    exact hnone t ht e)
  have e' : ∀ a, Hive.finish (Hive.flatten (.union (.null {} :: us) a)) = .union (.null {} :: bs) a := by
    intro a
    rw [Hive.flatten, Hive.flattenAll, List.foldl_cons]
    have e2 : Hive.absorb [] (Hive.flatten (.null {})) = [.null {}] := rfl
    rw [e2, e]
    rfl
  rw [e']
  constructor
  · refine .union ?_ ?_ ?_
    · intro b hb
      rcases List.mem_cons.mp hb with rfl | hb
      · exact .null
      · exact (hds b hb).1
    · intro b hb
      rcases List.mem_cons.mp hb with rfl | hb
      · rfl
      · exact (hds b hb).2
    · rw [List.map_cons, hkinds, List.nodup_cons]
      refine ⟨?_, hd⟩
      intro hm
      obtain ⟨t, ht, e⟩ := List.mem_map.mp hm
      exact hnone t ht e
  · intro y j hy hy1 hy0 hj
    cases hj with
    | null => exact absurd rfl hy0
    | union hm' hj =>
      cases hy with
      | null => exact absurd rfl hy0
      | union hm hy =>
        obtain ⟨b, hb, hv, hr⟩ := hall _ hm
        exact .union (List.mem_cons_of_mem _ hb) (fun _ => hv) (hr y j hy hy1 hy0 (member_written hd hs hm hm' hy hj))

/-! ## The property -/

/-- **C147** for Hive, with unions (partial): every row, with null left out, is valid, if no column of a union type is null in
it, and the values of the members of unions are of different kinds in JSON.  Missing: other unions (`C147_hive_union_refuted`,
`C147_hive_overlap_refuted`), unions and `void` inside other types, and null as an element of a list or a value of a map. -/
theorem C147_hive_unions_partial (table : Hive.HTable) (t : RType) (live : Registry) (schema : Dict)
    (refs : String → PyVal → Prop) (vs : List Val) (j : PyVal) (hn : FieldNames (· ≠ "") (hiveRow table))
    (ht : Hive.toRecap table = .ok t) (hs : Json.fromRecap live t = .ok schema) (hr : Interprets refs schema)
    (hx : HiveStored (fun _ _ => True) (hiveRow table) (.struct vs)) (hj : HiveWritten true (hiveRow table) (.struct vs) j)
    (hc : ∀ (i : Nat) c, table.columns[i]? = some c → Common c.type ∨ Separate c.type ∧ vs[i]? ≠ some .null)
    (hsol : ∀ v ∈ vs, Solid v) : Valid refs (.dict schema) j := by
  unfold Hive.toRecap at ht
  obtain ⟨ts, h1, ht⟩ := bind_ok ht
  cases ht
  obtain ⟨hl, hi⟩ := hive_columns live h1
  have hw := hive_writable h1 hn { extra := [("name", .str table.name)] } rfl
  have hsh : Shaped live (.struct ts { extra := [("name", .str table.name)] }) j := by
    unfold hiveRow at hx hj
    cases hx with
    | struct hlen hst =>
      rw [List.length_map] at hlen
      cases hj with
      | struct k1 k2 =>
        have key : ∀ t ∈ ts, ∃ (i : Nat) (c : Hive.HColumn) (y : Val), table.columns[i]? = some c ∧ vs[i]? = some y ∧
            Hive.parse (Hive.columnAttrs c.name c.comment) c.type = .ok t ∧ nameOf t = some (.str c.name) ∧
            (Common c.type → Reads live c.type t) := by
          intro t ht
          obtain ⟨i, hi', rfl⟩ := List.getElem_of_mem ht
          have e1 : table.columns[i]? = some (table.columns[i]'(by omega)) := List.getElem?_eq_getElem _
          exact ⟨i, _, vs[i]'(by omega), e1, List.getElem?_eq_getElem _, hi i _ _ e1 (List.getElem?_eq_getElem hi')⟩
        have at' : ∀ {i : Nat} {c : Hive.HColumn}, table.columns[i]? = some c →
            (table.columns.map fun c => (c.name, c.type))[i]? = some (c.name, c.type) := by
          intro i c hc
          rw [List.getElem?_map, hc]
          rfl
        refine .struct ?_ ?_ ?_
        · intro t ht
          obtain ⟨-, c, -, -, -, -, hn, -⟩ := key t ht
          exact ⟨_, hn⟩
        · intro t ht n v hn hv
          obtain ⟨i, c, y, e1, e2, hp, hn', hr⟩ := key t ht
          rw [hn'] at hn
          cases hn
          have hy0 : y ≠ .null := by
            intro e
            rw [(k1 i _ y (at' e1) e2).mpr ⟨rfl, e⟩] at hv
            cases hv
          have hy := hst i _ y (at' e1) e2
          have hv' := k2 i _ y v (at' e1) e2 hv
          rcases hc i c e1 with hcm | ⟨hsep, -⟩
          · exact (hr hcm).shaped y v hy (hsol y (List.mem_of_getElem? e2)) hy0 hv'
          · exact (reads_separate live hsep hp).2 y v hy (hsol y (List.mem_of_getElem? e2)) hy0 hv'
        · intro t ht n hn hv
          obtain ⟨i, c, y, e1, e2, hp, hn', hr⟩ := key t ht
          rw [hn'] at hn
          cases hn
          obtain ⟨-, rfl⟩ := (k1 i _ y (at' e1) e2).mp hv
          rcases hc i c e1 with hcm | ⟨-, h0⟩
          · exact (hr hcm).pair.optional
          · exact absurd e2 h0
  refine shaped_valid hs (noReference hw) (by rw [noAlias hw]; exact .nil) ?_ hr ?_ hsh
  · intro u s hu _ ha
    rw [(hw u (inside_sub hu)).alias] at ha
    cases ha
  · refine .struct fun f hf => ?_
    obtain ⟨i, hi', rfl⟩ := List.getElem_of_mem hf
    have e1 : table.columns[i]? = some (table.columns[i]'(by omega)) := List.getElem?_eq_getElem _
    obtain ⟨hp, -, hr⟩ := hi i _ _ e1 (List.getElem?_eq_getElem hi')
    rcases hc i _ e1 with hcm | ⟨hsep, -⟩
    · exact (hr hcm).distinct
    · exact (reads_separate live hsep hp).1

/-- `id bigint, tag uniontype<int,string,array<struct<x:int>>>`. -/
def tagged : Hive.HTable :=
  { name := "t", columns := [{ name := "id", type := .prim .long },
      { name := "tag", type := .union [.prim .int, .prim .string, .list (.struct [("x", .prim .int)])] }] }

/-- `{"tag": "a"}`, for a row with an `id` that is null, is valid. -/
example (refs : String → PyVal → Prop) : ∃ t schema, Hive.toRecap tagged = .ok t ∧
    Json.fromRecap newRegistry t = .ok schema ∧ Valid refs (.dict schema) (.dict [("tag", .str "a")]) := by
  refine ⟨_, _, rfl, rfl, ?_⟩
  refine C147_hive_unions_partial tagged _ newRegistry _ refs [.null, .str "a"] _ ?_ rfl rfl (fun _ _ hs => by cases hs) ?_ ?_ ?_ ?_
  · simp [tagged, hiveRow, FieldNames, Commands.Spec.FieldNamesIn, Commands.Spec.FieldNamesAll]
  · refine .struct rfl fun i g x hg hx => ?_
    match i, hg, hx with
    | 0, hg, hx => cases hg; cases hx; exact .null
    | 1, hg, hx =>
      cases hg; cases hx
      exact .union (List.mem_cons_of_mem _ (List.mem_cons_self ..)) (.prim .string trivial)
  · refine .struct (fun i g x hg hx => ?_) (fun i g x j hg hx hj => ?_)
    · match i, hg, hx with
      | 0, hg, hx => cases hg; cases hx; simp [Dict.get?]
      | 1, hg, hx => cases hg; cases hx; simp [Dict.get?]
    · match i, hg, hx with
      | 0, hg, hx => cases hg; cases hx; cases hj
      | 1, hg, hx =>
        cases hg; cases hx; cases hj
        exact .union (List.mem_cons_of_mem _ (List.mem_cons_self ..)) (.prim .str)
  · intro i c hc
    match i, hc with
    | 0, hc => cases hc; exact .inl (.prim nofun)
    | 1, hc => cases hc; exact .inr ⟨⟨_, rfl, fun t ht => by
        simp only [List.mem_cons, List.not_mem_nil, or_false] at ht
        rcases ht with rfl | rfl | rfl
        · exact .prim nofun
        · exact .prim nofun
        · refine .list (.struct fun f hf => ?_)
          cases List.mem_singleton.mp hf
          exact .prim nofun, by simp [jsonKind]⟩, by simp⟩
  · intro v hv
    simp only [List.mem_cons, List.not_mem_nil, or_false] at hv
    rcases hv with rfl | rfl
    · exact .null
    · exact .str

end Recap.NestedRows
