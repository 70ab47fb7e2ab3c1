import Verif.EndToEndSpec
import Verif.RowsThms
import Verif.CliThms
import Verif.InfoQueryThms

/-! # Lemmas for C150 -/

set_option autoImplicit false

namespace Recap.EndToEnd

open Recap.Url Recap.Url.Spec Recap.Clients Recap.Clients.Spec Recap.Commands Recap.Commands.Spec Recap.Relational
open Recap.InfoQuery Recap.InfoQuery.Spec Recap.JsonText Recap.JsonText.Spec Recap.Spec
open Recap.Json (convertF convertAll convertFields describe defsRef Writable aliasDefs_plain)
open Recap.Hive (everywhere_iff)

/-! ## The JSON Schema of a type is a value of Python -/

theorem real_one {k : String} {v : PyVal} (hv : Real v) : RealDict [(k, v)] :=
  realDict_iff.mpr ⟨by simp [Dict.keys], by simpa using hv⟩

theorem real_two {k l : String} {v w : PyVal} (hkl : k ≠ l) (hv : Real v) (hw : Real w) : RealDict [(k, v), (l, w)] :=
  realDict_iff.mpr ⟨by simp [Dict.keys, hkl], by simp [hv, hw]⟩

theorem describe_real {t : RType} (h : RealNode t) : RealDict (describe t.attrs) := by
  obtain ⟨-, -, hd, he, -⟩ := h
  unfold describe
  rcases hg : Dict.get? t.attrs.extra "default" with _ | v <;> by_cases ht : t.attrs.doc.truthy = true <;>
    simp only [ht, if_true, if_false, List.nil_append, List.append_nil, List.cons_append, Bool.false_eq_true]
  · exact real_one hd
  · exact realDict_iff.mpr ⟨by simp [Dict.keys], by simp⟩
  · exact real_two (by decide) (RealDict.get? he hg) hd
  · exact real_one (RealDict.get? he hg)

theorem convertAll_real {f : RType → Except PyErr Dict} : ∀ {ts : List RType} {ds : List PyVal},
    (∀ t ∈ ts, ∀ d, f t = .ok d → RealDict d) → convertAll f ts = .ok ds → Real (.list ds)
  | [], _, _, h => by cases h; exact real_list.mpr (by simp)
  | t :: ts, ds, hf, h => by
    simp only [convertAll] at h
    obtain ⟨d, h1, h⟩ := ok_bind h
    obtain ⟨ds', h2, h⟩ := ok_bind h
    cases h
    have ih := convertAll_real (fun u hu => hf u (List.mem_cons_of_mem _ hu)) h2
    refine real_list.mpr fun x hx => ?_
    rcases List.mem_cons.mp hx with rfl | hx
    · exact hf t (by simp) d h1
    · exact real_list.mp ih x hx

theorem convertFields_real {f : RType → Except PyErr Dict} : ∀ {ts : List RType} {props : Dict} {req : List PyVal} {r : Dict × List PyVal},
    (∀ t ∈ ts, ∀ d, f t = .ok d → RealDict d) → RealDict props → Real (.list req) → convertFields f ts props req = .ok r →
    RealDict r.1 ∧ Real (.list r.2)
  | [], _, _, _, _, hp, hq, h => by cases h; exact ⟨hp, hq⟩
  | t :: ts, props, req, r, hf, hp, hq, h => by
    simp only [convertFields] at h
    split at h
    · split at h
      · cases h
      · obtain ⟨d, h1, h⟩ := ok_bind h
        refine convertFields_real (fun u hu => hf u (List.mem_cons_of_mem _ hu)) (hp.set _ (hf t (by simp) d h1)) ?_ h
        split
        · exact hq
        · refine real_list.mpr fun x hx => ?_
          rcases List.mem_append.mp hx with hx | hx
          · exact real_list.mp hq x hx
          · cases List.mem_singleton.mp hx; trivial
    · split at h <;> cases h
    · cases h

theorem convert_real {live : Registry} : ∀ (n : Nat) (b : Bool) (t : RType) (d : Dict), RealType t →
    Everywhere (fun u => u.isProxy = false) t → convertF live n b t = .ok d → RealDict d
  | 0, _, _, _, _, _, h => by cases h
  | n + 1, b, t, d, hr, hp, h => by
    have htd := describe_real (hr t .refl)
    have sub : ∀ u, u ∈ children t → ∀ d, convertF live n true u = .ok d → RealDict d := by
      intro u hu d hd
      have hs := (everywhere_iff.mp hp).2 u hu
      refine convert_real n true u d (fun w hw => hr w ?_) hs hd
      cases t <;> simp only [children, List.mem_cons, List.not_mem_nil, or_false] at hu
      · subst hu; exact .list hw
      · rcases hu with rfl | rfl
        · exact .key hw
        · exact .value hw
      · exact .field hu hw
      · exact .member hu hw
    unfold convertF at h
    split at h
    · cases h; exact real_one trivial
    · cases t with
      | union ts a =>
        simp only at h
        split at h
        · split at h
          · rename_i t' he
            obtain ⟨d', h1, h⟩ := ok_bind h
            cases h
            refine RealDict.update htd (sub _ ?_ _ h1)
            have : t' ∈ ts.filter (fun t => !t.isNull) := by rw [he]; simp
            exact (List.mem_filter.mp this).1
          · cases h
        · obtain ⟨ds, h1, h⟩ := ok_bind h
          cases h
          exact RealDict.update htd (real_one (convertAll_real sub h1))
      | struct fs a =>
        simp only at h
        obtain ⟨⟨props, req⟩, h1, h⟩ := ok_bind h
        cases h
        obtain ⟨hp', hq⟩ := convertFields_real sub (realDict_iff.mpr ⟨by simp [Dict.keys], by simp⟩)
          (real_list.mpr (by simp)) h1
        refine RealDict.update htd ?_
        simp only at hp' hq ⊢
        split
        · exact real_two (by decide) trivial hp'
        · refine realDict_iff.mpr ⟨by simp [Dict.keys], ?_⟩
          simp only [List.cons_append, List.nil_append, List.mem_cons, List.not_mem_nil, or_false]
          rintro kv (rfl | rfl | rfl)
          · trivial
          · exact hp'
          · exact hq
      | list e l v a =>
        simp only at h
        obtain ⟨d', h1, h⟩ := ok_bind h
        cases h
        exact RealDict.update htd (real_two (by decide) trivial (sub _ (by simp [children]) _ h1))
      | map k e a =>
        simp only at h
        obtain ⟨d', h1, h⟩ := ok_bind h
        cases h
        exact RealDict.update htd (real_two (by decide) trivial (sub _ (by simp [children]) _ h1))
      | enum symbols a =>
        cases h
        refine RealDict.update htd (real_two (by decide) trivial ?_)
        exact (hr _ .refl).2.2.2.2 ("symbols", symbols) (by simp [Spec.params])
      | bytes => cases h; exact RealDict.update htd (real_two (by decide) trivial trivial)
      | proxy r a => exact absurd (everywhere_iff.mp hp).1 (by simp [RType.isProxy])
      | _ => cases h; exact RealDict.update htd (real_one trivial)

/-- The JSON Schema of a table is a value of Python. -/
theorem table_real {cm : CaseMap} {d : Dialect} {cols : List Dict} {reg live : Registry} {t : RType} {js : Dict}
    (h : d.toRecap cm cols reg = (.ok t, live)) (hc : Rows.Plain cm d cols) (hs : Json.fromRecap live t = .ok js) :
    Real (.dict js) := by
  obtain ⟨fs, rfl, -⟩ := toRecap_ok h
  obtain ⟨-, hl, hi⟩ := Rows.table_fields h hc
  have hf : ∀ f ∈ fs, Everywhere Writable f ∧ (∃ n, n ≠ "" ∧ Json.Spec.nameOf f = some (.str n)) ∧ RealType f := by
    intro f hf
    obtain ⟨i, hi', hfi⟩ := List.mem_iff_getElem.mp hf
    obtain ⟨b, s, s', -, h2, h3, h4⟩ := hi i (cols[i]'(by omega)) f (List.getElem?_eq_getElem _)
      (by rw [List.getElem?_eq_getElem hi', hfi])
    have hm : cols[i]'(by omega) ∈ cols := List.getElem_mem _
    obtain ⟨n, hn, hg⟩ := hc.name _ hm
    have := Relational.field_plain h3 h4 h2
    refine ⟨this.1, ⟨n, hn, this.2.1.trans hg⟩, fun u hu => ?_⟩
    exact (field_shown (hc.real _ hm) (by rw [hg]; simp) h3 h2 u hu).real
  have hw : Everywhere Writable (.struct fs {}) := Recap.Json.plain_struct (fun f h => (hf f h).1) rfl fun f h => (hf f h).2.1
  unfold Json.fromRecap at hs
  obtain ⟨d', h1, hs⟩ := ok_bind hs
  rw [aliasDefs_plain _ hw] at hs
  cases hs
  refine convert_real _ _ _ _ (fun u hu => ?_) (fun u hu => (hw u hu).proxy) h1
  cases hu with
  | refl =>
    refine ⟨trivial, trivial, trivial, ?_, ?_⟩
    · exact realDict_iff.mpr ⟨by simp [RType.attrs, Dict.keys], by simp [RType.attrs]⟩
    · simp [Spec.params]
  | field hm hu => exact (hf _ hm).2.2 u hu

/-! ## The columns of a table -/

theorem cells_get {view : View} {r : InfoRow} {n : String} (hn : n ∈ view.names) :
    Dict.get? (cells view r) n = some (r.cell n) := by
  unfold cells
  generalize view.names = l at hn ⊢
  induction l with
  | nil => cases hn
  | cons m ms ih =>
    by_cases e : m = n
    · subst e; simp
    · rcases List.mem_cons.mp hn with h | h
      · exact absurd h.symm e
      · have := ih h
        simp only [List.map_cons, Dict.get?] at this ⊢
        simp [this] <;> grind

theorem cells_real {cm : CaseMap} {view : View} (hs : Sound cm view) {r : InfoRow} (hr : r ∈ view.rows) :
    Real (.dict (cells view r)) := by
  refine realDict_iff.mpr ⟨?_, ?_⟩
  · have : Dict.keys (cells view r) = view.names := by simp [cells, Dict.keys, Function.comp_def]
    rw [this]; exact hs.wellFormed.names
  · intro kv hkv
    obtain ⟨n, hn, rfl⟩ := List.mem_map.mp hkv
    exact hs.real r hr n hn

/-- The columns of a table of MySQL or Snowflake are as C143 wants them. -/
theorem table_plain {cm : CaseMap} {view : View} {n : Names} {rows : List InfoRow} {c : Client} {d : Dialect} (hd : Speaks c d)
    (hs : Sound cm view) (hc : Columns view n rows) : Rows.Plain cm d (rows.map (cells view)) := by
  have hm : ∀ {c}, c ∈ rows.map (cells view) → ∃ r ∈ view.rows, c = cells view r := by
    intro c hc'
    obtain ⟨r, hr, rfl⟩ := List.mem_map.mp hc'
    exact ⟨r, ((hc.all r).mp hr).1, rfl⟩
  refine ⟨fun c h => ?_, fun c h => ?_, ?_, ?_⟩
  · obtain ⟨r, hr, rfl⟩ := hm h
    exact cells_real hs hr
  · obtain ⟨r, hr, rfl⟩ := hm h
    obtain ⟨x, hx, e⟩ := hs.name r hr
    exact ⟨x, hx, by rw [cells_get hs.named, e]⟩
  · intro e; subst e; cases hd
  · intro cfg e; subst e; cases hd

/-! ## What is read for the URL of a table -/

theorem reads {s : System} {confs : List Parts} {u : Parts} {c : Client} {catalog schema table : String} {strict : Bool}
    (ho : Ordinary s confs u) (hu : TableUrl u c catalog schema table) :
    (if strict = true ∧ chosen confs (databaseUrl u) = .none then
      reading s.env s.mysqlArgs s.urls (render u) strict = .error .valueError
    else ∃ kwargs, reading s.env s.mysqlArgs s.urls (render u) strict =
        .ok (c, kwargs, .table (.str catalog) (.str schema) (.str table)) ∧ Connects confs u c kwargs) := by
  have ht : ∀ x : String, text x.toList = .str x := fun x => by simp [text]
  rw [ho.urls]
  cases hu with
  | mysql h1 h2 h3 =>
    have := C87_mysql s.env s.mysqlArgs confs u strict _ _ _ ho.args ho.known ho.url h1 ho.host h2
      (fun e => h3 (String.toList_inj.mp (by rw [e]; rfl))) ho.query ho.queries
    split
    · next hc => rw [if_pos hc] at this; exact this
    · next hc =>
      rw [if_neg hc] at this
      obtain ⟨kwargs, e, a1, a2, a3, -⟩ := this
      rw [ht, ht] at e
      exact ⟨kwargs, e, a1, a2, a3⟩
  | snowflake h1 h2 h3 =>
    have := C87_snowflake_partial s.env s.mysqlArgs confs u strict _ _ _ _ ho.args ho.known ho.url h1 ho.host h2
      (fun e => h3 (String.toList_inj.mp (by rw [e]; rfl))) ho.query ho.queries
    split
    · next hc => rw [if_pos hc] at this; exact this
    · next hc =>
      rw [if_neg hc] at this
      obtain ⟨kwargs, e, a1, a2, a3⟩ := this
      rw [ht, ht, ht] at e
      exact ⟨kwargs, e, a1, a2, a3⟩

/-- What is shown for the URL of a table is made of the columns of that table. -/
theorem shown_table {cm : CaseMap} {S : Servers} {s : System} {confs : List Parts} {u : Parts} {c : Client} {d : Dialect}
    {catalog schema table : String} {strict : Bool} {f : Format} {o : Output} (hb : Behind cm S s.world)
    (ho : Ordinary s confs u) (hu : TableUrl u c catalog schema table) (hd : Speaks c d)
    (h : Commands.schema s (render u) f strict = .ok o) :
    ∃ kwargs, Connects confs u c kwargs ∧ ∀ cols, Sound cm (S.view c kwargs) → TableOf S c kwargs catalog schema table cols →
      Rows.Plain cm d cols ∧ ∃ t live, d.toRecap cm cols newRegistry = (.ok t, live) ∧ Shows live t f o := by
  obtain ⟨c', kw, src, t, live, h1, h2, h3⟩ := schema_iff.mp h
  have hr := reads (strict := strict) ho hu
  split at hr
  · rw [hr] at h1; cases h1
  · obtain ⟨kwargs, e, hcon⟩ := hr
    rw [e] at h1
    simp only [Except.ok.injEq, Prod.mk.injEq] at h1
    obtain ⟨rfl, rfl, rfl⟩ := h1
    refine ⟨_, hcon, ?_⟩
    rintro _ hs ⟨n, rows, hm, hc, rfl⟩
    refine ⟨table_plain hd hs hc, ?_⟩
    obtain ⟨out, ha, hw⟩ := hb c d hd kwargs catalog schema table
    have hout : out = rows := columns_unique (answer_columns hs.wellFormed hm ha) hc
    subst hout
    rw [hw] at h2
    unfold clientSchema at h2
    rw [List.map_congr_left (g := cells (S.view c kwargs)) fun r _ => rowDict_eq hs.wellFormed hs.capitals r] at h2
    split at h2
    · next t' live' e' => cases h2; exact ⟨_, _, e', h3⟩
    · cases h2

end Recap.EndToEnd
