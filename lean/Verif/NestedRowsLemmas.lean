import Verif.NestedRowsSpec
import Verif.RowsLemmas
import Verif.CommandsJsonMore

/-! # Rows of BigQuery and Hive tables as JSON: helper lemmas for C147 -/

set_option autoImplicit false

namespace Recap.NestedRows

open RType Recap.Values Recap.Spec Recap.Rows
open Recap.JsonData
open Recap.Json (Writable isOptionalField)
open Recap.Json.Spec (nameOf OptionalField)
open Recap.Commands.Spec (Named NamedAll FieldNames)
open Recap.Relational (bind_ok Bare)

/-! ## BigQuery -/

section
open Recap.BigQuery

/-- What `decorate` makes of a type. -/
def Decorated (mode : String) (u w : RType) : Prop :=
  (mode = "NULLABLE" ∧ ∃ a, w = .union [.null {}, u] a ∧ "default" ∈ Dict.keys a.extra) ∨
  (mode = "REPEATED" ∧ ∃ a, w = .list u .none (.bool true) a) ∨
  (mode ≠ "NULLABLE" ∧ mode ≠ "REPEATED" ∧ ∃ a, w = u.withAttrs a)

theorem withAttrs_twice (t : RType) (a b : Attrs) : (t.withAttrs a).withAttrs b = t.withAttrs b := by cases t <;> rfl

theorem decorated {mode : String} {name description dflt : PyVal} {u : RType} (hb : Bare u) (hn : u.isNullable = false)
    (hu : ∀ ts a, u ≠ .union ts a) : Decorated mode u (decorate mode name description dflt u) := by
  refine decorate_inv (I := Decorated mode u) ?_ ?_ ?_
  · rintro w k v (⟨h, a, rfl, hd⟩ | ⟨h, a, rfl⟩ | ⟨h, h', a, rfl⟩)
    · exact .inl ⟨h, _, rfl, by
        show "default" ∈ Dict.keys (Dict.set a.extra k v)
        rw [Dict.keys_set]; split <;> simp [hd]⟩
    · exact .inr (.inl ⟨h, _, rfl⟩)
    · exact .inr (.inr ⟨h, h', _, withAttrs_twice ..⟩)
  · rintro w v (⟨h, a, rfl, hd⟩ | ⟨h, a, rfl⟩ | ⟨h, h', a, rfl⟩)
    · exact .inl ⟨h, _, rfl, hd⟩
    · exact .inr (.inl ⟨h, _, rfl⟩)
    · exact .inr (.inr ⟨h, h', _, withAttrs_twice ..⟩)
  · by_cases h1 : mode = "REPEATED"
    · subst h1
      exact .inr (.inl ⟨rfl, _, rfl⟩)
    · by_cases h2 : mode = "NULLABLE"
      · subst h2
        rw [wrap_nullable hb hn hu]
        exact .inl ⟨rfl, _, rfl, by simp [Dict.keys]⟩
      · rw [wrap_other h1 h2]
        refine .inr (.inr ⟨h2, h1, u.attrs, ?_⟩)
        cases u <;> rfl

theorem optional_null {u : RType} {a : Attrs} (hn : u.isNull = false) (hd : "default" ∈ Dict.keys a.extra) :
    OptionalField (.union [.null {}, u] a) :=
  optional_iff.mpr (Opt.optional ⟨u, a, rfl, hn, hd⟩)

theorem pair_shaped {live : Registry} {u : RType} {a : Attrs} {j : PyVal} (hn : u.isNull = false)
    (hd : "default" ∈ Dict.keys a.extra) : Shaped live (.union [.null {}, u] a) j ↔ Shaped live u j := by
  constructor
  · intro h
    cases h with
    | union hm h1 h2 =>
      rcases List.mem_cons.mp hm with rfl | hm
      · exact absurd (h1 (optional_null hn hd)) (by simp [RType.isNull])
      · cases List.mem_singleton.mp hm
        exact h2
  · exact fun h => .union (List.mem_cons_of_mem _ (List.mem_cons_self ..)) (fun _ => hn) h

/-- A union of null and one other type that is neither a union nor a reference, with a default. -/
def Pair (t : RType) : Prop :=
  ∃ u a k, t = .union [.null {}, u] a ∧ u.isNull = false ∧ "default" ∈ Dict.keys a.extra ∧ kindOf u = some k ∧ k ≠ "null"

theorem pair_of {u : RType} {a : Attrs} (hu : ∀ ts a, u ≠ .union ts a) (hp : u.isProxy = false) (hn : u.isNull = false)
    (hd : "default" ∈ Dict.keys a.extra) : Pair (.union [.null {}, u] a) := by
  obtain ⟨k, h1, h2⟩ := kind_leaf hu hp hn
  exact ⟨u, a, k, rfl, hn, hd, h1, h2⟩

theorem Pair.optional {t : RType} (h : Pair t) : OptionalField t := by
  obtain ⟨u, a, k, rfl, h1, h2, -⟩ := h
  exact optional_null h1 h2

theorem pair_distinct {u : RType} {a : Attrs} (hn : u.isNull = false) (hd : "default" ∈ Dict.keys a.extra)
    (h : Distinct u) : Distinct (.union [.null {}, u] a) := by
  refine .optional (optional_null hn hd) ?_
  simp only [List.mem_cons, List.not_mem_nil, or_false, forall_eq_or_imp, forall_eq]
  exact ⟨.null, h⟩

theorem stored_repeated {ok : Field → Val → Prop} {f : Field} {xs : List Val} (hx : BigQueryStored ok f (.list xs))
    (hm : f.mode = "REPEATED") : ∀ x ∈ xs, BigQueryElement ok f x := by
  cases hx with
  | single h => exact absurd hm h
  | repeated h => exact h

theorem decorated_shaped {live : Registry} {leave : Bool} {ft mode : String} {n d df l p s : PyVal} {fs : List Field} {u w : RType}
    {x : Val} {j : PyVal} (h : Decorated mode u w) (hn : u.isNull = false) (hu : ∀ ts a, u ≠ .union ts a)
    (hp : u.isProxy = false) (hx : BigQueryStored (fun _ _ => True) (.mk ft mode n d df l p s fs) x) (hx0 : x ≠ .null)
    (hj : BigQueryCell leave (.mk ft mode n d df l p s fs) x j)
    (he : ∀ y i, BigQueryElement (fun _ _ => True) (.mk ft mode n d df l p s fs) y →
      BigQueryItem leave (.mk ft mode n d df l p s fs) y i → Shaped live u i) : Shaped live w j := by
  cases hj with
  | null => exact absurd rfl hx0
  | single hm _ hj =>
    cases hx with
    | null => exact absurd rfl hx0
    | repeated => exact absurd rfl hm
    | single _ hx =>
      have := he _ _ hx hj
      rcases h with ⟨-, a, rfl, hd⟩ | ⟨h, -⟩ | ⟨-, -, a, rfl⟩
      · exact (pair_shaped hn hd).mpr this
      · exact absurd h hm
      · exact shaped_withAttrs hu hp this
  | @repeated _ _ _ _ _ _ _ _ xs js hl hj =>
    have hx := stored_repeated hx rfl
    rcases h with ⟨h, -⟩ | ⟨-, a, rfl⟩ | ⟨-, h, -⟩
    · exact absurd h (by decide)
    · refine .list fun y hy => ?_
      obtain ⟨i, hi, rfl⟩ := List.getElem_of_mem hy
      exact he (xs[i]'(by omega)) _ (hx _ (List.getElem_mem _))
        (hj i _ _ (List.getElem?_eq_getElem _) (List.getElem?_eq_getElem _))
    · exact absurd rfl h

theorem scalar_shaped {live : Registry} {ft mode : String} {n d df l p s : PyVal} {fs : List Field} {t : RType} {x : Val} {j : PyVal}
    (h : scalar ft l p s = .ok t) (hx : BigQueryScalar (.mk ft mode n d df l p s fs) x) (hj : Written x j) : Shaped live t j := by
  cases hx with
  | string => cases h; cases hj; exact .string
  | stringMax hl => cases h; cases hj; exact .string
  | json => cases h; cases hj; exact .string
  | bytes hl => cases h; cases hj; exact .bytes
  | int hm hi =>
    simp only [List.mem_cons, List.not_mem_nil, or_false] at hm
    rcases hm with rfl | rfl <;> cases h <;> cases hj <;> exact .int
  | float hm =>
    simp only [List.mem_cons, List.not_mem_nil, or_false] at hm
    rcases hm with rfl | rfl <;> cases h <;> cases hj <;> first | exact .float | exact .whole
  | bool => cases h; cases hj; exact .bool
  | instant hm hd hc =>
    simp only [List.mem_cons, List.not_mem_nil, or_false] at hm
    rcases hm with rfl | rfl <;> cases h <;> cases hj <;> exact .int
  | date hc => cases h; cases hj; exact .int
  | time hd hc => cases h; cases hj; exact .int
  | numeric _ => cases h; cases hj; exact .bytes
  | numericP => cases h; cases hj; exact .bytes
  | numericPS => cases h; cases hj; exact .bytes
  | bignumeric _ => cases h; cases hj; exact .bytes
  | bignumericP => cases h; cases hj; exact .bytes
  | bignumericPS => cases h; cases hj; exact .bytes

theorem scalar_leaf {ft : String} {l p s : PyVal} {t : RType} (h : scalar ft l p s = .ok t) :
    t.isNull = false ∧ t.isProxy = false ∧ Distinct t := by
  unfold scalar at h
  repeat' split at h
  all_goals first
    | (cases h; done)
    | (cases h; exact ⟨rfl, rfl, by first | exact .string | exact .bytes | exact .int | exact .float | exact .bool⟩)

/-- A record with fields like this is an object with their names. -/
theorem record_shaped {live : Registry} {leave : Bool} {ft mode : String} {n d df l p s : PyVal} {fields : List Field} {ts : List RType}
    {x : Val} {j : PyVal} (hleave : leave = true) (hr : ft ∈ ["RECORD", "STRUCT"]) (hn : NamedAll fields)
    (hl : ts.length = fields.length)
    (hfs : ∀ (i : Nat) f t, fields[i]? = some f → ts[i]? = some t → fieldOf f = .ok t ∧
      ∀ y k, BigQueryStored (fun _ _ => True) f y → y ≠ .null → BigQueryCell leave f y k → Shaped live t k)
    (hx : BigQueryElement (fun _ _ => True) (.mk ft mode n d df l p s fields) x)
    (hj : BigQueryItem leave (.mk ft mode n d df l p s fields) x j) : Shaped live (.struct ts {}) j := by
  subst hleave
  cases hx with
  | leaf hsc _ =>
    exfalso
    cases hsc <;> simp_all <;> grind
  | @record _ _ _ _ _ _ _ _ _ vs _ hlen hrec =>
    cases hj with
    | leaf h => cases h
    | record h1 h2 h3 =>
      have key : ∀ f ∈ ts, ∃ i : Nat, ∃ g x, fields[i]? = some g ∧ ts[i]? = some f ∧ vs[i]? = some x ∧ fieldOf g = .ok f ∧
          nameOf f = some (columnName g) ∧ (isOptionalField f = true ↔ g.mode = "NULLABLE") ∧
          BigQueryStored (fun _ _ => True) g x ∧
          (∀ k, x ≠ .null → BigQueryCell true g x k → Shaped live f k) := by
        intro f hf
        obtain ⟨i, hi, rfl⟩ := List.getElem_of_mem hf
        have e1 : fields[i]? = some (fields[i]'(by omega)) := List.getElem?_eq_getElem _
        have e2 : vs[i]? = some (vs[i]'(by omega)) := List.getElem?_eq_getElem _
        obtain ⟨h4, h5⟩ := hfs i _ _ e1 (List.getElem?_eq_getElem hi)
        obtain ⟨-, -, w1, w2⟩ := fieldOf_writable _ _ h4 (namedAll_mem hn _ (List.getElem_mem _))
        refine ⟨i, _, _, e1, List.getElem?_eq_getElem hi, e2, h4, ?_, w2, hrec i _ _ e1 e2,
          fun k => h5 _ k (hrec i _ _ e1 e2)⟩
        rw [w1]
        cases fields[i]'(by omega)
        rfl
      refine .struct ?_ ?_ ?_
      · intro f hf
        obtain ⟨i, g, x, e1, -, e2, -, hnm, -⟩ := key f hf
        obtain ⟨m, hm⟩ := h1 i g x e1 e2
        exact ⟨m, by rw [hnm, hm]⟩
      · intro f hf m v hm hv
        obtain ⟨i, g, x, e1, -, e2, -, hnm, -, -, hsh⟩ := key f hf
        have hc : columnName g = .str m := by rw [hnm] at hm; exact Option.some.inj hm
        have hx0 : x ≠ .null := by
          intro e
          rw [(h2 i g x m e1 e2 hc).mpr ⟨rfl, e⟩] at hv
          cases hv
        exact hsh v hx0 (h3 i g x m v e1 e2 hc hv)
      · intro f hf m hm hv
        obtain ⟨i, g, x, e1, -, e2, -, hnm, hopt, hst, -⟩ := key f hf
        have hc : columnName g = .str m := by rw [hnm] at hm; exact Option.some.inj hm
        obtain ⟨-, rfl⟩ := (h2 i g x m e1 e2 hc).mp hv
        refine optional_iff.mpr (hopt.mpr ?_)
        cases hst with
        | null => rfl
        | single _ h =>
          cases h with
          | leaf h _ => cases h

theorem fieldsOf_length : ∀ {fs : List Field} {ts : List RType}, fieldsOf fs = .ok ts → ts.length = fs.length
  | [], ts, h => by
    rw [fieldsOf] at h
    cases h
    rfl
  | f :: fs, ts, h => by
    rw [fieldsOf] at h
    obtain ⟨t, h1, h⟩ := bind_ok h
    obtain ⟨us, h2, h⟩ := bind_ok h
    cases h
    simp [fieldsOf_length h2]

mutual
theorem field_cell (live : Registry) : ∀ (f : Field) (t : RType), fieldOf f = .ok t → Named f → Distinct t ∧
    ∀ y k, BigQueryStored (fun _ _ => True) f y → y ≠ .null → BigQueryCell true f y k → Shaped live t k
  | .mk ft mode n d df l p s fields, t, h, hn => by
    rw [fieldOf] at h
    split at h
    · rename_i hr
      obtain ⟨ts, h1, h⟩ := bind_ok h
      cases h
      rw [Named] at hn
      have hfs := fields_cell live fields ts h1 hn.2
      have hl := fieldsOf_length h1
      have hdec : Decorated mode (.struct ts {}) (decorate mode n d df (.struct ts {})) :=
        decorated ⟨rfl, rfl, rfl⟩ rfl (fun _ _ h => nomatch h)
      have hdist : Distinct (.struct ts {}) := .struct fun u hu => by
        obtain ⟨i, hi, rfl⟩ := List.getElem_of_mem hu
        exact (hfs i _ _ (List.getElem?_eq_getElem (by omega)) (List.getElem?_eq_getElem hi)).2.1
      refine ⟨?_, fun y k hy hy0 hk => decorated_shaped hdec rfl (fun _ _ h => nomatch h) rfl hy hy0 hk fun z i hz hi => ?_⟩
      · rcases hdec with ⟨-, a, e, hd⟩ | ⟨-, a, e⟩ | ⟨-, -, a, e⟩
        · rw [e]; exact pair_distinct rfl hd hdist
        · rw [e]; exact .list hdist
        · rw [e]; exact distinct_withAttrs (fun _ _ h => nomatch h) hdist
      · exact record_shaped rfl (by simpa using hr) hn.2 hl
          (fun i f t hf ht => ⟨(hfs i f t hf ht).1, (hfs i f t hf ht).2.2⟩) hz hi
    · rename_i hr
      obtain ⟨u, h1, h⟩ := bind_ok h
      cases h
      obtain ⟨hb, hnn, hu, -⟩ := scalar_fresh h1
      obtain ⟨hnl, hp, hdist⟩ := scalar_leaf h1
      have hdec : Decorated mode u (decorate mode n d df u) := decorated hb hnn hu
      refine ⟨?_, fun y k hy hy0 hk => decorated_shaped hdec hnl hu hp hy hy0 hk fun z i hz hi => ?_⟩
      · rcases hdec with ⟨-, a, e, hd⟩ | ⟨-, a, e⟩ | ⟨-, -, a, e⟩
        · rw [e]; exact pair_distinct hnl hd hdist
        · rw [e]; exact .list hdist
        · rw [e]; exact distinct_withAttrs hu hdist
      · cases hz with
        | leaf hsc _ =>
          cases hi with
          | leaf hw => exact scalar_shaped h1 hsc hw
          | record => cases hsc
        | record hm => exact absurd (by simpa using hm) hr
theorem fields_cell (live : Registry) : ∀ (fs : List Field) (ts : List RType), fieldsOf fs = .ok ts → NamedAll fs →
    ∀ (i : Nat) f t, fs[i]? = some f → ts[i]? = some t → fieldOf f = .ok t ∧ Distinct t ∧
      ∀ y k, BigQueryStored (fun _ _ => True) f y → y ≠ .null → BigQueryCell true f y k → Shaped live t k
  | [], ts, h, _ => by simp
  | f :: fs, ts, h, hn => by
    rw [fieldsOf] at h
    obtain ⟨u, h1, h⟩ := bind_ok h
    obtain ⟨us, h2, h⟩ := bind_ok h
    cases h
    rw [NamedAll] at hn
    intro i g t hg ht
    cases i with
    | zero =>
      simp at hg ht
      subst hg ht
      exact ⟨h1, field_cell live f _ h1 hn.1⟩
    | succ i => exact fields_cell live fs us h2 hn.2 i g t (by simpa using hg) (by simpa using ht)
end

end

/-! ## Hive -/

section
open Recap.Hive

theorem finish_pair {b : RType} (h1 : b.isUnion = false) (h2 : b.isNull = false) :
    ∃ (a a' : Attrs), Hive.finish b = .union [.null {}, b.withAttrs a] a' ∧ "default" ∈ Dict.keys a'.extra := by
  refine ⟨{ b.attrs with doc := .none, extra := demoted b.attrs.extra },
    { doc := b.attrs.doc, extra := promoted b.attrs }, ?_, ?_⟩
  · unfold Hive.finish
    rw [h1, h2]
    cases b <;> first | (cases h1; done) | (cases h2; done) | rfl
  · unfold promoted
    cases Dict.get? b.attrs.extra "name" <;> simp [Dict.keys]

theorem parseFields_index : ∀ {fs : List (String × HType)} {ts : List RType}, parseFields fs = .ok ts → ts.length = fs.length ∧
    ∀ (i : Nat) f t, fs[i]? = some f → ts[i]? = some t → Hive.parse (columnAttrs f.1 .none) f.2 = .ok t
  | [], ts, h => by
    rw [parseFields] at h
    cases h
    simp
  | (n, h') :: fs, ts, h => by
    rw [parseFields] at h
    obtain ⟨u, h1, h⟩ := bind_ok h
    obtain ⟨us, h2, h⟩ := bind_ok h
    cases h
    obtain ⟨hl, hi⟩ := parseFields_index h2
    refine ⟨by simp [hl], fun i f t hf ht => ?_⟩
    cases i with
    | zero =>
      simp at hf ht
      subst hf ht
      exact h1
    | succ i => exact hi i f t (by simpa using hf) (by simpa using ht)

theorem parseColumns_index : ∀ {cs : List HColumn} {ts : List RType}, parseColumns cs = .ok ts → ts.length = cs.length ∧
    ∀ (i : Nat) c t, cs[i]? = some c → ts[i]? = some t → Hive.parse (columnAttrs c.name c.comment) c.type = .ok t
  | [], ts, h => by
    rw [parseColumns] at h
    cases h
    simp
  | c :: cs, ts, h => by
    rw [parseColumns] at h
    obtain ⟨u, h1, h⟩ := bind_ok h
    obtain ⟨us, h2, h⟩ := bind_ok h
    cases h
    obtain ⟨hl, hi⟩ := parseColumns_index h2
    refine ⟨by simp [hl], fun i f t hf ht => ?_⟩
    cases i with
    | zero =>
      simp at hf ht
      subst hf ht
      exact h1
    | succ i => exact hi i f t (by simpa using hf) (by simpa using ht)

/-- The type `t` is read for `h`, and its values are those of `h`. -/
structure Reads (live : Registry) (h : HType) (t : RType) : Prop where
  distinct : Distinct t
  pair : Pair t
  shaped : ∀ x j, HiveStored (fun _ _ => True) h x → Solid x → x ≠ .null → HiveWritten true h x j → Shaped live t j

theorem reads_finish {live : Registry} {h : HType} {b : RType} (h1 : b.isUnion = false) (h2 : b.isNull = false)
    (hp : b.isProxy = false) (hd : Distinct b)
    (hs : ∀ x j, HiveStored (fun _ _ => True) h x → Solid x → x ≠ .null → HiveWritten true h x j → Shaped live b j) :
    Reads live h (Hive.finish b) := by
  have hu : ∀ ts a, b ≠ .union ts a := by rintro ts a rfl; cases h1
  obtain ⟨a, a', e, hdf⟩ := finish_pair h1 h2
  rw [e]
  have hn : (b.withAttrs a).isNull = false := by cases b <;> first | (cases h2; done) | rfl
  exact ⟨pair_distinct hn hdf (distinct_withAttrs hu hd), pair_of (withAttrs_union hu) (withAttrs_proxy.trans hp) hn hdf,
    fun x j hx hx1 hx2 hj => (pair_shaped hn hdf).mpr (shaped_withAttrs hu hp (hs x j hx hx1 hx2 hj))⟩

theorem struct_shaped {live : Registry} {fs : List (String × HType)} {ts : List RType} {a : Attrs} {x : Val} {j : PyVal}
    (hl : ts.length = fs.length)
    (hi : ∀ (i : Nat) f t, fs[i]? = some f → ts[i]? = some t → nameOf t = some (.str f.1) ∧ Reads live f.2 t)
    (hx : HiveStored (fun _ _ => True) (.struct fs) x) (hx1 : Solid x) (hx2 : x ≠ .null) (hj : HiveWritten true (.struct fs) x j) :
    Shaped live (.struct ts a) j := by
  cases hx with
  | null => exact absurd rfl hx2
  | @struct _ vs hlen hst =>
    cases hj with
    | struct k1 k2 =>
      cases hx1 with
      | struct hsol =>
        have key : ∀ t ∈ ts, ∃ i : Nat, ∃ f y, fs[i]? = some f ∧ vs[i]? = some y ∧ nameOf t = some (.str f.1) ∧
            Reads live f.2 t := by
          intro t ht
          obtain ⟨i, hi', rfl⟩ := List.getElem_of_mem ht
          have e1 : fs[i]? = some (fs[i]'(by omega)) := List.getElem?_eq_getElem _
          obtain ⟨g1, g2⟩ := hi i _ _ e1 (List.getElem?_eq_getElem hi')
          exact ⟨i, _, vs[i]'(by omega), e1, List.getElem?_eq_getElem _, g1, g2⟩
        refine .struct ?_ ?_ ?_
        · intro t ht
          obtain ⟨-, f, -, -, -, hn, -⟩ := key t ht
          exact ⟨_, hn⟩
        · intro t ht n v hn hv
          obtain ⟨i, f, y, e1, e2, hn', hr⟩ := key t ht
          rw [hn'] at hn
          cases hn
          have hy0 : y ≠ .null := by
            intro e
            rw [(k1 i f y e1 e2).mpr ⟨rfl, e⟩] at hv
            cases hv
          exact hr.shaped y v (hst i f y e1 e2) (hsol y (List.mem_of_getElem? e2)) hy0 (k2 i f y v e1 e2 hv)
        · intro t ht n hn hv
          obtain ⟨i, f, y, e1, e2, hn', hr⟩ := key t ht
          exact hr.pair.optional

/-- What is read for a type without unions and voids. -/
theorem reads_common (live : Registry) {h : HType} (hc : Common h) : ∀ {x : Attrs} {t : RType}, Given x → Hive.parse x h = .ok t →
    Reads live h t := by
  induction hc with
  | @prim c hv =>
    intro x t _ hp
    rw [Hive.parse] at hp
    obtain ⟨b, h1, hp⟩ := bind_ok hp
    cases hp
    cases c <;> cases h1 <;> first
      | exact absurd rfl hv
      | (refine reads_finish rfl rfl rfl ?_ ?_
         · first | exact .bool | exact .int | exact .float | exact .string | exact .bytes
         · intro y j hy _ hy2 hj
           cases hy with
           | null => exact absurd rfl hy2
           | prim hy _ =>
             cases hj with
             | null => exact absurd rfl hy2
             | prim hj =>
               cases hy <;> cases hj <;>
                 first | exact .bool | exact .int | exact .float | exact .whole | exact .string | exact .bytes)
  | decimal =>
    intro x t _ hp
    rw [Hive.parse] at hp
    split at hp
    · cases hp
    · cases hp
      refine reads_finish rfl rfl rfl .bytes ?_
      intro y j hy _ hy2 hj
      cases hy with
      | null => exact absurd rfl hy2
      | decimal =>
        cases hj with
        | decimal hj => cases hj; exact .bytes
  | varchar =>
    intro x t _ hp
    rw [Hive.parse] at hp
    cases hp
    refine reads_finish rfl rfl rfl .string ?_
    intro y j hy _ hy2 hj
    cases hy with
    | null => exact absurd rfl hy2
    | varchar =>
      cases hj with
      | varchar hj => cases hj; exact .string
  | char =>
    intro x t _ hp
    rw [Hive.parse] at hp
    cases hp
    refine reads_finish rfl rfl rfl .string ?_
    intro y j hy _ hy2 hj
    cases hy with
    | null => exact absurd rfl hy2
    | char =>
      cases hj with
      | char hj => cases hj; exact .string
  | map _ ih =>
    intro x t _ hp
    rw [Hive.parse] at hp
    obtain ⟨k, -, hp⟩ := bind_ok hp
    obtain ⟨v, h2, hp⟩ := bind_ok hp
    cases hp
    have hr := ih given_empty h2
    refine reads_finish rfl rfl rfl (.map hr.distinct) ?_
    intro y j hy hy1 hy2 hj
    cases hy with
    | null => exact absurd rfl hy2
    | @map _ _ ps _ hvs =>
      cases hj with
      | @map _ _ _ o hl hj =>
        cases hy1 with
        | map hn hs =>
          refine .map fun kv hkv => ?_
          obtain ⟨i, hi, rfl⟩ := List.getElem_of_mem hkv
          have hm : ps[i]'(by omega) ∈ ps := List.getElem_mem _
          exact hr.shaped _ _ (hvs _ hm) (hs _ hm) (hn _ hm)
            (hj i _ _ (List.getElem?_eq_getElem _) (List.getElem?_eq_getElem _))
  | list _ ih =>
    intro x t _ hp
    rw [Hive.parse] at hp
    obtain ⟨e, h1, hp⟩ := bind_ok hp
    cases hp
    have hr := ih given_empty h1
    refine reads_finish rfl rfl rfl (.list hr.distinct) ?_
    intro y j hy hy1 hy2 hj
    cases hy with
    | null => exact absurd rfl hy2
    | @list _ vs hvs =>
      cases hj with
      | @list _ _ js hl hj =>
        cases hy1 with
        | list hn hs =>
          refine .list fun z hz => ?_
          obtain ⟨i, hi, rfl⟩ := List.getElem_of_mem hz
          have hm : vs[i]'(by omega) ∈ vs := List.getElem_mem _
          exact hr.shaped _ _ (hvs _ hm) (hs _ hm) (hn _ hm)
            (hj i _ _ (List.getElem?_eq_getElem _) (List.getElem?_eq_getElem _))
  | @struct fs _ ih =>
    intro x t _ hp
    rw [Hive.parse] at hp
    obtain ⟨ts, h1, hp⟩ := bind_ok hp
    cases hp
    obtain ⟨hl, hi⟩ := parseFields_index h1
    have hr : ∀ (i : Nat) f t, fs[i]? = some f → ts[i]? = some t → nameOf t = some (.str f.1) ∧ Reads live f.2 t := by
      intro i f t hf ht
      have e := hi i f t hf ht
      exact ⟨by rw [Hive.parse_nameOf (given_column ..) e]; rfl, ih f (List.mem_of_getElem? hf) (given_column ..) e⟩
    refine reads_finish rfl rfl rfl (.struct fun u hu => ?_) (fun y j hy hy1 hy2 hj => struct_shaped hl hr hy hy1 hy2 hj)
    obtain ⟨i, hi', rfl⟩ := List.getElem_of_mem hu
    exact (hr i _ _ (List.getElem?_eq_getElem (by omega)) (List.getElem?_eq_getElem hi')).2.distinct

end

/-! ## What is not valid -/

open Recap.Json (convertF)

theorem defined_writable {refs : String → PyVal → Prop} {live : Registry} {t : RType} (hw : Everywhere Writable t) :
    Defined refs live t := by
  refine ⟨builtin_inlined (noReference hw), fun u s hi _ hs => ?_⟩
  rw [(hw u (inside_sub hi)).alias] at hs
  cases hs

/-- Null is not valid against what is written for an optional type. -/
theorem pair_valid {refs : String → PyVal → Prop} {live : Registry} {t : RType} {n : Nat} {b : Bool} {d : Dict} {j : PyVal}
    (hp : Pair t) (hw : Everywhere Writable t) (h : convertF live n b t = .ok d) (hv : Valid refs (.dict d) j) :
    ∃ u a n' d', t = .union [.null {}, u] a ∧ Everywhere Writable u ∧ convertF live n' true u = .ok d' ∧
      Valid refs (.dict d') j ∧ j ≠ .none := by
  obtain ⟨u, a, k, rfl, h1, h2, h3, h4⟩ := hp
  have hdef := defined_writable (refs := refs) (live := live) hw
  obtain ⟨n', d', h', he⟩ := convert_definition hdef h
  rw [he] at hv
  have ho : isOptional [.null {}, u] a.extra = true := by
    have := optional_iff.mp (optional_null (a := a) h1 h2)
    exact this
  cases n' with
  | zero => cases h'
  | succ m =>
    simp only [convertF, Bool.false_eq_true, if_false, ho, if_true] at h'
    split at h'
    · rename_i w hf
      have hwu : w = u := by
        rw [List.filter_cons_of_neg (by simp [RType.isNull]), List.filter_cons_of_pos (by simp [h1]), List.filter_nil] at hf
        cases hf
        rfl
      subst hwu
      obtain ⟨d1, hd1, h'⟩ := ok_bind h'
      cases h'
      have hv := (valid_describe (Json.convertF_nodup hd1)).mp hv
      have hwu : Everywhere Writable w := (Hive.everywhere_iff.mp hw).2 w (by simp [children])
      refine ⟨w, a, m, d1, rfl, hwu, hd1, hv, ?_⟩
      rintro rfl
      have := convert_kind (defined_writable hwu) hd1 h3 hv
      exact h4 (this.symm.trans rfl)
    · cases h'

/-- What is valid against the schema of a struct has valid properties. -/
theorem property_valid {refs : String → PyVal → Prop} {live : Registry} {fs : List RType} {a : Attrs} {schema : Dict} {o : Dict}
    {f : RType} {m : String} {j : PyVal} (hw : Everywhere Writable (.struct fs a)) (hn : (fs.map nameOf).Nodup)
    (h : Json.fromRecap live (.struct fs a) = .ok schema) (hv : Valid refs (.dict schema) (.dict o)) (hf : f ∈ fs)
    (hm : nameOf f = some (.str m)) (hj : Dict.get? o m = some j) :
    ∃ n d, convertF live n true f = .ok d ∧ Valid refs (.dict d) j := by
  obtain ⟨n, s, defs, hs, hd, rfl⟩ := Json.fromRecap_ok h
  have hv : Valid refs (.dict s) (.dict o) := by
    split at hv
    · exact hv
    · exact (valid_defs (Json.convertF_no_defs hs)).mp hv
  obtain ⟨n', d', h', he⟩ := convert_definition (defined_writable (refs := refs) (live := live) hw) hs
  rw [he] at hv
  cases n' with
  | zero => cases h'
  | succ n =>
    simp only [convertF, Bool.false_eq_true, if_false] at h'
    obtain ⟨⟨props, req⟩, h1, h'⟩ := ok_bind h'
    cases h'
    have hv := (valid_describe (by split <;> simp [Dict.keys])).mp hv
    obtain ⟨m', d1, hm', hf', hp', _⟩ := convertFields_each h1 hn hf
    rw [hm] at hm'
    cases hm'
    have := (valid_get hv (k := "properties") rfl).properties rfl
    rw [Properties, propertiesAll_iff] at this
    exact ⟨n, d1, hf', this _ (Dict.mem_of_get? hp') o j rfl hj⟩

end Recap.NestedRows
