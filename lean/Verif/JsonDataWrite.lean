import Verif.JsonDataLemmas
import Verif.JsonSchemaEnds

/-!
# The values of a type are valid against the written schema

C131.
-/

set_option autoImplicit false

namespace Recap.JsonData

open Json
open Avro.Spec (IntValue)
open Values (Fits)
open Json.Spec (nameOf OptionalField defsOf Inside Spans IsReference Builtin BuiltinOnly requiredNames)

variable {refs : String → PyVal → Prop} {live : Registry}

/-! ## Schemas with a default and a description -/

theorem get?_nodup {e : Dict} (hn : (Dict.keys e).Nodup) {k : String} {v : PyVal} (h : (k, v) ∈ e) :
    Dict.get? e k = some v := by
  induction e with
  | nil => cases h
  | cons kv e ih =>
    obtain ⟨k', v'⟩ := kv
    simp only [Dict.keys, List.map_cons, List.nodup_cons] at hn
    rw [Dict.get?_cons]
    rcases List.mem_cons.mp h with e' | h
    · cases e'; simp
    · have : k' ≠ k := fun e' => hn.1 (e' ▸ List.mem_map.mpr ⟨_, h, rfl⟩)
      simp [this, ih hn.2 h]

theorem key_idle {names : List String} {k : String} {v j : PyVal} (h : k = "default" ∨ k = "description") :
    Key refs names k v j := by
  rcases h with rfl | rfl <;>
    exact ⟨by simp, by simp, by simp, by simp, by simp, by simp, by simp, by simp⟩

theorem valid_describe {a : Attrs} {e : Dict} (hn : (Dict.keys e).Nodup) {j : PyVal} :
    Valid refs (.dict (Dict.update (describe a) e)) j ↔ Valid refs (.dict e) j := by
  have hg : ∀ k, k ≠ "default" → k ≠ "description" →
      Dict.get? (Dict.update (describe a) e) k = Dict.get? e k := by
    intro k h1 h2
    rw [get?_update _ _ _ hn]
    have : Dict.get? (describe a) k = .none := by
      rw [Dict.get?_eq_none_iff]
      intro hk
      rcases describe_keys a k hk with h | h
      · exact h1 h
      · exact h2 h
    simp [this]
  have hp : propertyNames (Dict.update (describe a) e) = propertyNames e := by
    rw [propertyNames, propertyNames, hg _ (by decide) (by decide)]
  rw [valid_iff, valid_iff, hp]
  constructor
  · rintro h ⟨k, v⟩ hm
    by_cases hk : k = "default" ∨ k = "description"
    · exact key_idle hk
    · refine h (k, v) (Dict.mem_of_get? ?_)
      rw [hg k (fun e => hk (.inl e)) (fun e => hk (.inr e))]
      exact get?_nodup hn hm
  · rintro h ⟨k, v⟩ hm
    rcases mem_update hm with hm | hm
    · exact key_idle (describe_keys a k (List.mem_map.mpr ⟨_, hm, rfl⟩))
    · exact h (k, v) hm

theorem valid_defs {d defs : Dict} {j : PyVal} (hd : Dict.get? d "$defs" = .none) :
    Valid refs (.dict (Dict.set d "$defs" (.dict defs))) j ↔ Valid refs (.dict d) j := by
  have hp : propertyNames (Dict.set d "$defs" (.dict defs)) = propertyNames d := by
    rw [propertyNames, propertyNames, Dict.get?_set_ne _ _ (by decide)]
  have hs : Dict.set d "$defs" (.dict defs) = d ++ [("$defs", .dict defs)] := by
    exact Dict.set_of_not_mem _ (Dict.get?_eq_none_iff.mp hd)
  rw [valid_iff, hp, valid_iff, hs]
  constructor
  · exact fun h kv hm => h kv (List.mem_append_left _ hm)
  · intro h kv hm
    rcases List.mem_append.mp hm with hm | hm
    · exact h kv hm
    · cases List.mem_singleton.mp hm
      exact ⟨by simp, by simp, by simp, by simp, by simp, by simp, by simp, by simp⟩

/-! ## Kinds -/

/-- The kind of a JSON value; all numbers are of one kind. -/
def kindVal : PyVal → String
  | .none => "null"
  | .bool _ => "boolean"
  | .int _ | .float .. => "number"
  | .str _ => "string"
  | .list _ => "array"
  | .dict _ => "object"

theorem kind_val {s : String} {j : PyVal} (h : Kind s j) : s ≠ "integer" → kindVal j = s := by
  intro hs
  cases h <;> simp_all [kindVal]

theorem kind_whole {j : PyVal} (h : Kind "integer" j) : kindVal j = "number" := by
  rcases kind_integer h with ⟨i, rfl⟩ | ⟨q, e, rfl⟩ <;> rfl

/-! ## Definitions -/

theorem inside_spans {t u : RType} (h : Inside u t) : Spans live t u := by
  induction h with
  | refl => exact .refl
  | list _ ih => exact .list ih
  | value _ ih => exact .value ih
  | field hm _ ih => exact .field hm ih
  | member hm _ ih => exact .member hm ih

theorem spans_trans {t u v : RType} (h : Spans live t u) (h' : Spans live u v) : Spans live t v := by
  induction h with
  | refl => exact h'
  | list _ ih => exact .list (ih h')
  | value _ ih => exact .value (ih h')
  | field hm _ ih => exact .field hm (ih h')
  | member hm _ ih => exact .member hm (ih h')
  | target hr _ ih => exact .target hr (ih h')

theorem Clean.mono {t u : RType} (h : Clean live t) (hu : Spans live t u) : Clean live u :=
  ⟨fun r a hx => h.inlined r a (spans_trans hu hx), fun x hx => h.alias x (spans_trans hu hx)⟩

/-- References in the type are replaced by what they resolve to. -/
structure Inlined (live : Registry) (t : RType) : Prop where
  inlined : ∀ r a, Inside (.proxy r a) t → Builtin a.alias ∨ a.extra ≠ []
  clean : ∀ r a u, Inside (.proxy r a) t → resolve live r a = .ok u → Clean live u

theorem Inlined.mono {t u : RType} (h : Inlined live t) (hu : Inside u t) : Inlined live u :=
  ⟨fun r a hx => h.inlined r a (inside_trans hu hx), fun r a v hx => h.clean r a v (inside_trans hu hx)⟩

theorem clean_inlined {t : RType} (h : Clean live t) : Inlined live t :=
  ⟨fun r a hx => h.inlined r a (inside_spans hx),
    fun _ _ _ hx hr => h.mono (spans_trans (inside_spans hx) (.target hr .refl))⟩

theorem clean_leaf {t : RType} (hl : isLeaf t = true) (ha : t.attrs.alias = .none) : Clean live t := by
  refine ⟨fun r a hx => ?_, fun u hx _ => ?_⟩
  · have := spans_leaf hl hx
    subst this
    cases hl
  · rw [spans_leaf hl hx, ha]

theorem builtin_inlined {t : RType} (hb : BuiltinOnly live t) : Inlined live t :=
  ⟨fun r a hx => .inl (hb r a hx).1, fun r a u hx hr => by
    obtain ⟨h1, h2, h3⟩ := hb r a hx
    obtain ⟨hl, ha⟩ := target_leaf h1 h2 h3 hr
    exact clean_leaf hl ha⟩

theorem builtin_definite {t : RType} (hb : BuiltinOnly live t) (hn : (Recap.Spec.definedAliases t).Nodup)
    (hw : ∀ u s, Inside u t → ¬ IsReference u → u.attrs.alias = .str s → s ≠ "" ∧ ¬ Builtin (.str s)) :
    Definite live t :=
  ⟨(builtin_inlined hb).inlined, (builtin_inlined hb).clean, hn, hw, fun r a u s hx hu hr hs e =>
    (hw u s hu hr hs).2 (e ▸ (hb r a hx).1)⟩

theorem distinct_inside {t u : RType} (hd : Distinct t) (h : Inside u t) : Distinct u := by
  induction h with
  | refl => exact hd
  | list _ ih => cases hd with | list hd => exact ih hd
  | value _ ih => cases hd with | map hd => exact ih hd
  | field hm _ ih => cases hd with | struct hd => exact ih (hd _ hm)
  | member hm _ ih =>
    cases hd with
    | optional _ hd => exact ih (hd _ hm)
    | union hd => exact ih (hd _ hm)

theorem distinct_spans {t : RType} (hb : BuiltinOnly live t) (hd : Distinct t) : ∀ u, Spans live t u → Distinct u := by
  intro u hu
  rcases spans_inside hb hu with hu | ⟨hl, -⟩
  · exact distinct_inside hd hu
  · cases u with
    | list | map | struct | union | proxy => cases hl
    | _ => constructor

theorem names_spans {t : RType} (hb : BuiltinOnly live t) (hn : NamesDiffer t) : ∀ u, Spans live t u → NamesDiffer u := by
  intro u hu fs a hi
  rcases spans_inside hb hu with hu | ⟨hl, -⟩
  · exact hn fs a (inside_trans hu hi)
  · have := spans_leaf (live := live) hl (inside_spans hi)
    subst this
    cases hl

/-- What is written for a reference. -/
theorem reference_written {r : Option (List (String × RType))} {a : Attrs} (hb : Builtin a.alias ∨ a.extra ≠ [])
    {n : Nat} {b : Bool} {d : Dict} (h : convertF live n b (.proxy r a) = .ok d) :
    ∃ m u, n = m + 1 ∧ resolve live r a = .ok u ∧ convertF live m true u = .ok d := by
  cases n with
  | zero => cases h
  | succ n =>
    have ho : (if b = true then ownAlias (.proxy r a) else .none) = .none := by cases b <;> rfl
    simp only [convertF, ho] at h
    obtain ⟨b', hb', h⟩ := ok_bind h
    have hc : (b' || !a.extra.isEmpty) = true := by
      rcases hb with hb | hb
      · rw [(isBuiltin_ok hb').mpr hb]; rfl
      · have : a.extra.isEmpty = false := by simpa using hb
        simp [this]
    rw [hc] at h
    simp only [if_true] at h
    obtain ⟨u, hr, h⟩ := ok_bind h
    exact ⟨n, u, rfl, hr, h⟩

/-- The definitions of the types nested in `t` are what is written for them. -/
structure Defined (refs : String → PyVal → Prop) (live : Registry) (t : RType) : Prop where
  inlined : Inlined live t
  alias : ∀ u s, Inside u t → ¬ IsReference u → u.attrs.alias = .str s →
    ∃ n d, convertF live n false u = .ok d ∧ ∀ j, refs ("#/$defs/" ++ s) j ↔ Valid refs (.dict d) j

theorem Defined.mono {t u : RType} (h : Defined refs live t) (hu : Inside u t) : Defined refs live u :=
  ⟨h.inlined.mono hu, fun x s hx => h.alias x s (inside_trans hu hx)⟩

theorem clean_defined {t : RType} (h : Clean live t) : Defined refs live t :=
  ⟨clean_inlined h, fun u s hx hr hs => by
    rw [h.alias u (inside_spans hx) hr] at hs
    cases hs⟩

theorem valid_ref {s : String} {j : PyVal} : Valid refs (.dict (defsRef s)) j ↔ refs ("#/$defs/" ++ s) j := by
  rw [valid_iff]
  constructor
  · intro h
    obtain ⟨s', e, h⟩ := (h _ (List.mem_singleton.mpr rfl)).ref rfl
    cases e
    exact h
  · intro h kv hm
    simp only [defsRef, List.mem_singleton] at hm
    subst hm
    exact ⟨by simp, by simp, by simp, fun _ => ⟨_, rfl, h⟩, by simp, by simp, by simp, by simp⟩

/-- A reference to the definition of a type says what the definition says. -/
theorem convert_definition {t : RType} (hd : Defined refs live t) {n : Nat} {b : Bool} {d : Dict}
    (h : convertF live n b t = .ok d) :
    ∃ n' d', convertF live n' false t = .ok d' ∧ ∀ j, Valid refs (.dict d) j ↔ Valid refs (.dict d') j := by
  cases b with
  | false => exact ⟨n, d, h, fun _ => Iff.rfl⟩
  | true =>
    cases n with
    | zero => cases h
    | succ n =>
      cases ho : ownAlias t with
      | none =>
        refine ⟨n + 1, d, ?_, fun _ => Iff.rfl⟩
        rw [← h]
        simp only [convertF, ho, if_true, Bool.false_eq_true, if_false]
      | some s =>
        obtain ⟨h1, h2⟩ := ownAlias_some ho
        obtain ⟨n', d', h3, h4⟩ := hd.alias t s .refl h1 h2
        have : d = defsRef s := by
          simp only [convertF, ho, if_true] at h
          cases h; rfl
        subst this
        exact ⟨n', d', h3, fun j => by rw [valid_ref, h4]⟩

/-! ## Schemas of one type -/

theorem valid_type {s : String} {e : Dict} {j : PyVal} (hk : Kind s j)
    (he : ∀ kv ∈ e, Key refs (propertyNames (("type", .str s) :: e)) kv.1 kv.2 j) :
    Valid refs (.dict (("type", .str s) :: e)) j := by
  rw [valid_iff]
  intro kv hm
  rcases List.mem_cons.mp hm with rfl | hm
  · exact ⟨fun _ => hk, by simp, by simp, by simp, by simp, by simp, by simp, by simp⟩
  · exact he kv hm

theorem type_valid {s : String} {e : Dict} {j : PyVal} (h : Valid refs (.dict (("type", .str s) :: e)) j) : Kind s j :=
  (valid_iff.mp h _ (List.mem_cons_self ..)).type rfl

theorem convert_kind {t : RType} (hd : Defined refs live t) {n : Nat} {b : Bool} {d : Dict}
    (h : convertF live n b t = .ok d) {k : String} (hk : kindOf t = some k) {j : PyVal}
    (hj : Valid refs (.dict d) j) : kindVal j = k := by
  obtain ⟨n', d', h', he⟩ := convert_definition hd h
  rw [he] at hj
  clear h he
  cases n' with
  | zero => cases h'
  | succ n =>
    simp only [convertF, Bool.false_eq_true, if_false] at h'
    cases t with
    | union => simp [kindOf] at hk
    | proxy => simp [kindOf] at hk
    | struct fs a =>
      simp only at h'
      obtain ⟨⟨props, req⟩, _, h'⟩ := ok_bind h'
      cases h'
      cases hk
      have hj := (valid_describe (by split <;> simp [Dict.keys])).mp hj
      exact kind_val (type_valid hj) (by decide)
    | list t l v a =>
      simp only at h'
      obtain ⟨d1, _, h'⟩ := ok_bind h'
      cases h'
      cases hk
      have hj := (valid_describe (by simp [Dict.keys])).mp hj
      exact kind_val (type_valid hj) (by decide)
    | map t v a =>
      simp only at h'
      obtain ⟨d1, _, h'⟩ := ok_bind h'
      cases h'
      cases hk
      have hj := (valid_describe (by simp [Dict.keys])).mp hj
      exact kind_val (type_valid hj) (by decide)
    | int =>
      cases h'
      cases hk
      have hj := (valid_describe (by simp [Dict.keys])).mp hj
      exact kind_whole (type_valid hj)
    | _ =>
      cases h'
      cases hk
      have hj := (valid_describe (by simp [Dict.keys])).mp hj
      exact kind_val (type_valid hj) (by decide)

/-! ## Fields -/

theorem convertFields_mem {f : RType → Except PyErr Dict} {ts : List RType} {props props' : Dict}
    {req req' : List PyVal} (h : convertFields f ts props req = .ok (props', req')) :
    (∀ x ∈ req', x ∈ req ∨ ∃ t ∈ ts, ∃ name, nameOf t = some (.str name) ∧ x = .str name ∧ ¬OptionalField t) ∧
    ∀ name s, (name, s) ∈ props' → (name, s) ∈ props ∨
      ∃ t ∈ ts, ∃ d, nameOf t = some (.str name) ∧ f t = .ok d ∧ s = .dict d := by
  induction ts generalizing props req with
  | nil => cases h; exact ⟨fun x hx => .inl hx, fun _ _ hx => .inl hx⟩
  | cons t ts ih =>
    simp only [convertFields] at h
    split at h
    · rename_i name hname
      split at h
      · cases h
      · obtain ⟨d, hd, h⟩ := ok_bind h
        obtain ⟨h1, h2⟩ := ih h
        constructor
        · intro x hx
          rcases h1 x hx with hx | ⟨t', ht', hh⟩
          · split at hx
            · exact .inl hx
            · rename_i ho
              rcases List.mem_append.mp hx with hx | hx
              · exact .inl hx
              · refine .inr ⟨t, by simp, name, hname, List.mem_singleton.mp hx, ?_⟩
                rintro ⟨us, a, rfl, hu⟩
                exact ho (by simpa [isOptionalField] using hu)
          · exact .inr ⟨t', by simp [ht'], hh⟩
        · intro m s hs
          rcases h2 m s hs with hs | ⟨t', ht', hh⟩
          · rcases mem_set' hs with hs | e
            · exact .inl hs
            · cases e
              exact .inr ⟨t, by simp, d, hname, hd, rfl⟩
          · exact .inr ⟨t', by simp [ht'], hh⟩
    · split at h <;> cases h
    · cases h

/-! ## Members of unions -/

theorem convertAll_all {f : RType → Except PyErr Dict} {ts : List RType} {ds : List PyVal}
    (h : convertAll f ts = .ok ds) : ∀ t ∈ ts, ∃ d, f t = .ok d := by
  induction ts generalizing ds with
  | nil => simp
  | cons t ts ih =>
    simp only [convertAll] at h
    obtain ⟨d, hd, h⟩ := ok_bind h
    obtain ⟨ds', hds, h⟩ := ok_bind h
    intro u hu
    rcases List.mem_cons.mp hu with rfl | hu
    · exact ⟨d, hd⟩
    · exact ih hds u hu

theorem exactlyOne_union {f : RType → Except PyErr Dict} {ts : List RType} {ds : List PyVal}
    (h : convertAll f ts = .ok ds) (hn : (ts.map kindOf).Nodup) (hs : ∀ t ∈ ts, (kindOf t).isSome)
    {t : RType} (ht : t ∈ ts) {j : PyVal}
    (hk : ∀ u ∈ ts, ∀ d k, f u = .ok d → kindOf u = some k → Valid refs (.dict d) j → kindVal j = k)
    (hv : ∀ d, f t = .ok d → Valid refs (.dict d) j) : ExactlyOne refs ds j := by
  induction ts generalizing ds with
  | nil => cases ht
  | cons u ts ih =>
    simp only [convertAll] at h
    obtain ⟨d, hd, h⟩ := ok_bind h
    obtain ⟨ds', hds, h⟩ := ok_bind h
    cases h
    rw [ExactlyOne]
    simp only [List.map_cons, List.nodup_cons] at hn
    have other : ∀ t' ∈ ts, kindOf t' ≠ kindOf u := fun t' ht' e =>
      hn.1 (List.mem_map.mpr ⟨t', ht', e⟩)
    rcases List.mem_cons.mp ht with rfl | ht
    · refine .inl ⟨hv d hd, noneOf_iff.mpr fun s hs' => ?_⟩
      obtain ⟨t', ht', d', hd', rfl⟩ := convertAll_ok hds s hs'
      intro hv'
      obtain ⟨k, hk1⟩ := Option.isSome_iff_exists.mp (hs t (by simp))
      obtain ⟨k', hk2⟩ := Option.isSome_iff_exists.mp (hs t' (by simp [ht']))
      have e1 := hk t (by simp) d k hd hk1 (hv d hd)
      have e2 := hk t' (by simp [ht']) d' k' hd' hk2 hv'
      exact other t' ht' (by rw [hk1, hk2, ← e1, ← e2])
    · refine .inr ⟨fun hv' => ?_, ih hds hn.2 (fun t' ht' => hs t' (by simp [ht'])) ht
        (fun u hu => hk u (by simp [hu]))⟩
      obtain ⟨d', hd'⟩ : ∃ d', f t = .ok d' := by
        obtain ⟨d', hd'⟩ := convertAll_all hds t ht
        exact ⟨d', hd'⟩
      obtain ⟨k, hk1⟩ := Option.isSome_iff_exists.mp (hs u (by simp))
      obtain ⟨k', hk2⟩ := Option.isSome_iff_exists.mp (hs t (by simp [ht]))
      have e1 := hk u (by simp) d k hd hk1 hv'
      have e2 := hk t (by simp [ht]) d' k' hd' hk2 (hv d' hd')
      exact other t ht (by rw [hk1, hk2, ← e1, ← e2])

/-! ## Types -/

theorem ownAlias_free {t : RType} (h : t.attrs.alias = .none) : ownAlias t = .none := by
  cases t <;> simp only [ownAlias, RType.attrs] at h ⊢ <;> rw [h]

theorem convert_leaf {t : RType} (hl : isLeaf t = true) {n : Nat} {d : Dict}
    (h : convertF live n false t = .ok d) {j : PyVal} (hc : Shaped live t j) : Valid refs (.dict d) j := by
  cases n with
  | zero => cases h
  | succ n =>
    simp only [convertF, Bool.false_eq_true, if_false] at h
    cases hc with
    | null => cases h; exact (valid_describe (by simp [Dict.keys])).mpr (valid_type .null (by simp))
    | bool => cases h; exact (valid_describe (by simp [Dict.keys])).mpr (valid_type .boolean (by simp))
    | int => cases h; exact (valid_describe (by simp [Dict.keys])).mpr (valid_type .integer (by simp))
    | point => cases h; exact (valid_describe (by simp [Dict.keys])).mpr (valid_type .point (by simp))
    | float => cases h; exact (valid_describe (by simp [Dict.keys])).mpr (valid_type .number (by simp))
    | whole => cases h; exact (valid_describe (by simp [Dict.keys])).mpr (valid_type .whole (by simp))
    | string => cases h; exact (valid_describe (by simp [Dict.keys])).mpr (valid_type .string (by simp))
    | bytes =>
      cases h
      refine (valid_describe (by simp [Dict.keys])).mpr (valid_type .string ?_)
      intro kv hm
      cases List.mem_singleton.mp hm
      exact ⟨by simp, by simp, by simp, by simp, by simp, by simp, by simp, by simp⟩
    | enum hs =>
      cases h
      refine (valid_describe (by simp [Dict.keys])).mpr (valid_type .string ?_)
      intro kv hm
      cases List.mem_singleton.mp hm
      exact ⟨by simp, fun _ => hs, by simp, by simp, by simp, by simp, by simp, by simp⟩
    | _ => cases hl

theorem carries_shaped {t : RType} {j : PyVal} (h : Carries live false t j) : Shaped live t j := by
  induction h with
  | null => exact .null
  | bool => exact .bool
  | int _ => exact .int
  | point _ => exact .point
  | float _ => exact .float
  | whole _ => exact .whole
  | string _ => exact .string
  | bytes => exact .bytes
  | enum h => exact .enum h
  | list _ ih => exact .list ih
  | map _ _ _ ih => exact .map ih
  | struct h1 _ h3 ih => exact .struct h1 ih fun f hf n hn hg => by simpa [Omissible] using h3 f hf n hn hg
  | union h1 h2 _ ih => exact .union h1 (h2.resolve_left (by simp)) ih
  | reference hr _ ih => exact .reference hr ih

theorem convert_valid {t : RType} (ht : ∀ u, Spans live t u → Distinct u) (hd : Defined refs live t) {n : Nat} {b : Bool}
    {d : Dict} (h : convertF live n b t = .ok d) {j : PyVal} (hc : Shaped live t j) : Valid refs (.dict d) j := by
  induction hc generalizing n b d with
  | @reference r u j a hr hc ih =>
    obtain ⟨m, u', rfl, hr', h⟩ := reference_written (hd.inlined.inlined r a .refl) h
    rw [hr] at hr'
    cases hr'
    exact ih (fun x hx => ht x (.target hr hx)) (clean_defined (hd.inlined.clean r a u .refl hr)) h
  | null | bool | int | point | float | whole | string | bytes =>
    obtain ⟨n', d', h', he⟩ := convert_definition hd h
    rw [he]
    exact convert_leaf rfl h' (by constructor)
  | enum hs =>
    obtain ⟨n', d', h', he⟩ := convert_definition hd h
    rw [he]
    exact convert_leaf rfl h' (.enum hs)
  | list hx ih =>
    obtain ⟨n', d', h', he⟩ := convert_definition hd h
    rw [he]
    cases n' with
    | zero => cases h'
    | succ n' =>
      simp only [convertF, Bool.false_eq_true, if_false] at h'
      obtain ⟨d1, h1, h'⟩ := ok_bind h'
      cases h'
      refine (valid_describe (by simp [Dict.keys])).mpr (valid_type .array ?_)
      intro kv hm
      cases List.mem_singleton.mp hm
      refine ⟨by simp, by simp, by simp, by simp, fun _ xs e x hm => ?_, by simp, by simp, by simp⟩
      cases e
      exact ih x hm (fun y hy => ht y (.list hy)) (hd.mono (.list .refl)) h1
  | map hx ih =>
    obtain ⟨n', d', h', he⟩ := convert_definition hd h
    rw [he]
    cases n' with
    | zero => cases h'
    | succ n' =>
      simp only [convertF, Bool.false_eq_true, if_false] at h'
      obtain ⟨d1, h1, h'⟩ := ok_bind h'
      cases h'
      refine (valid_describe (by simp [Dict.keys])).mpr (valid_type .object ?_)
      intro kv hm
      cases List.mem_singleton.mp hm
      refine ⟨by simp, by simp, by simp, by simp, by simp, fun _ o e x hm _ => ?_, by simp, by simp⟩
      cases e
      exact ih x hm (fun y hy => ht y (.value hy)) (hd.mono (.value .refl)) h1
  | @struct fs a o hn hx hr ih =>
    obtain ⟨n', d', h', he⟩ := convert_definition hd h
    rw [he]
    cases n' with
    | zero => cases h'
    | succ n' =>
      simp only [convertF, Bool.false_eq_true, if_false] at h'
      obtain ⟨⟨props, req⟩, h1, h'⟩ := ok_bind h'
      cases h'
      obtain ⟨g1, g2⟩ := convertFields_mem h1
      have hp : ∀ names, Key refs names "properties" (.dict props) (.dict o) := by
        intro names
        refine ⟨by simp, by simp, by simp, by simp, by simp, by simp, fun _ => ?_, by simp⟩
        rw [Properties, propertiesAll_iff]
        rintro ⟨m, s⟩ hm o' v e hv
        cases e
        rcases g2 m s hm with hm | ⟨t, ht', d1, hn', hf, rfl⟩
        · cases hm
        · exact ih t ht' m v hn' hv (fun y hy => ht y (.field ht' hy)) (hd.mono (.field ht' .refl)) hf
      have hq : ∀ names, Key refs names "required" (.list req) (.dict o) := by
        intro names
        refine ⟨by simp, by simp, fun _ o' e x hx' => ?_, by simp, by simp, by simp, by simp, by simp⟩
        cases e
        rcases g1 x hx' with hm | ⟨t, ht', m, hm, rfl, ho⟩
        · cases hm
        · refine ⟨m, rfl, ?_⟩
          cases hg : Dict.get? o m with
          | none => exact absurd (hr t ht' m hm hg) ho
          | some v => exact List.mem_map.mpr ⟨_, Dict.mem_of_get? hg, rfl⟩
      refine (valid_describe (by split <;> simp [Dict.keys])).mpr (valid_type .object ?_)
      intro kv hm
      rcases List.mem_cons.mp hm with rfl | hm
      · exact hp _
      · split at hm
        · cases hm
        · cases List.mem_singleton.mp hm
          exact hq _
  | @union ts t j a hm hnull hc ih =>
    obtain ⟨n', d', h', he⟩ := convert_definition hd h
    rw [he]
    have step : ∀ {n b d}, convertF live n b t = .ok d → Valid refs (.dict d) j := fun hf =>
      ih (fun y hy => ht y (.member hm hy)) (hd.mono (.member hm .refl)) hf
    cases n' with
    | zero => cases h'
    | succ n' =>
      simp only [convertF, Bool.false_eq_true, if_false] at h'
      split at h'
      · rename_i ho'
        split at h'
        · rename_i m hf
          obtain ⟨d1, h1, h'⟩ := ok_bind h'
          cases h'
          have hnn := hnull ⟨_, _, rfl, ho'⟩
          have : t ∈ ts.filter (fun t => !t.isNull) := List.mem_filter.mpr ⟨hm, by simp [hnn]⟩
          rw [hf] at this
          cases List.mem_singleton.mp this
          exact (valid_describe (convertF_nodup h1)).mpr (step h1)
        · cases h'
      · rename_i ho'
        obtain ⟨ds, h1, h'⟩ := ok_bind h'
        cases h'
        refine (valid_describe (by simp [Dict.keys])).mpr ?_
        rw [valid_iff]
        intro kv hkv
        cases List.mem_singleton.mp hkv
        refine ⟨by simp, by simp, by simp, by simp, by simp, by simp, by simp, fun _ => ?_⟩
        rw [OneOf]
        cases ht _ .refl with
        | optional ho =>
          obtain ⟨_, _, e, ho⟩ := ho
          cases e
          exact absurd ho ho'
        | union _ hs hn =>
          exact exactlyOne_union h1 hn hs hm
            (fun u hu d k hf hk => convert_kind (hd.mono (.member hu .refl)) hf hk) (fun d hf => step hf)

/-! ## The whole document -/

theorem defs_of {t : RType} {n : Nat} {defs : Dict} (ht : Definite live t)
    (hd : aliasDefs (convertF live n) t = .ok defs) :
    (∀ u s, Inside u t → ¬ IsReference u → u.attrs.alias = .str s →
      ∃ d, Dict.get? defs s = some (.dict d) ∧ convertF live n false u = .ok d) ∧
    ∀ s v, Dict.get? defs s = some v → ∃ u d, Inside u t ∧ u.attrs.alias = .str s ∧ v = .dict d ∧
      convertF live n false u = .ok d := by
  have hok := aliasDefs_ok t hd
  constructor
  · intro u s hi hnr hs
    obtain ⟨h2, h3⟩ := ht.aliases u s hi hnr hs
    have hk := hok.complete u hi s hs h2 h3
    obtain ⟨v, hv⟩ : ∃ v, Dict.get? defs s = some v := by
      cases hg : Dict.get? defs s with
      | none => exact absurd hk (Dict.get?_eq_none_iff.mp hg)
      | some v => exact ⟨v, rfl⟩
    obtain ⟨u', d', hi', rfl, hf, hs', _⟩ := hok.sound s v (Dict.mem_of_get? hv)
    have hnr' : ¬ IsReference u' := by
      rintro ⟨r, a, rfl⟩
      exact ht.others r a u s hi' hi hnr hs hs'
    cases alias_unique ht.distinct hi hi' hnr hnr' hs hs'
    exact ⟨d', hv, hf⟩
  · intro s v hv
    obtain ⟨u', d', hi', rfl, hf, hs', h4, h5⟩ := hok.sound s v (Dict.mem_of_get? hv)
    exact ⟨u', d', hi', hs', rfl, hf⟩

theorem definite_defined {t : RType} {n : Nat} {defs : Dict} (ht : Definite live t)
    (hd : aliasDefs (convertF live n) t = .ok defs)
    (hr : ∀ alias s, Dict.get? defs alias = some s → ∀ j, refs ("#/$defs/" ++ alias) j ↔ Valid refs s j) :
    Defined refs live t := by
  refine ⟨⟨ht.inlined, ht.clean⟩, fun u s' hi hnr hs' => ?_⟩
  obtain ⟨d', h1, h2⟩ := (defs_of ht hd).1 u s' hi hnr hs'
  exact ⟨n, d', h2, hr s' _ h1⟩

/-- Both interpretations of references agree on the schema. -/
def Same (refs refs' : String → PyVal → Prop) (v : PyVal) : Prop := ∀ j, Valid refs v j ↔ Valid refs' v j

/-- Both interpretations of references agree on the keyword. -/
structure SameKey (refs refs' : String → PyVal → Prop) (k : String) (v : PyVal) : Prop where
  ref : k = "$ref" → ∀ s, v = .str s → ∀ j, refs s j ↔ refs' s j
  items : k = "items" → Same refs refs' v
  values : k = "additionalProperties" → Same refs refs' v
  properties : k = "properties" → ∀ ps, v = .dict ps → ∀ p ∈ ps, Same refs refs' (Prod.snd p)
  oneOf : k = "oneOf" → ∀ ss, v = .list ss → ∀ s ∈ ss, Same refs refs' s

theorem Same.symm {refs refs' : String → PyVal → Prop} {v : PyVal} (h : Same refs refs' v) : Same refs' refs v :=
  fun j => (h j).symm

theorem SameKey.symm {refs refs' : String → PyVal → Prop} {k : String} {v : PyVal} (h : SameKey refs refs' k v) :
    SameKey refs' refs k v :=
  ⟨fun e s hs j => (h.ref e s hs j).symm, fun e => (h.items e).symm, fun e => (h.values e).symm,
    fun e ps hp p hm => (h.properties e ps hp p hm).symm, fun e ss hp p hm => (h.oneOf e ss hp p hm).symm⟩

theorem exactlyOne_same {refs refs' : String → PyVal → Prop} {ss : List PyVal} (h : ∀ s ∈ ss, Same refs refs' s) {j : PyVal} :
    ExactlyOne refs ss j ↔ ExactlyOne refs' ss j := by
  induction ss with
  | nil => simp [ExactlyOne]
  | cons s ss ih =>
    have h1 := h s (by simp) j
    have h2 := ih (fun x hx => h x (by simp [hx]))
    have h3 : NoneOf refs ss j ↔ NoneOf refs' ss j := by
      rw [noneOf_iff, noneOf_iff]
      constructor
      · exact fun hh x hx => fun hv => hh x hx ((h x (by simp [hx]) j).mpr hv)
      · exact fun hh x hx => fun hv => hh x hx ((h x (by simp [hx]) j).mp hv)
    rw [ExactlyOne, ExactlyOne, h1, h2, h3]

theorem key_same {refs refs' : String → PyVal → Prop} {names : List String} {k : String} {v j : PyVal}
    (h : SameKey refs refs' k v) (hk : Key refs names k v j) : Key refs' names k v j := by
  refine ⟨hk.type, hk.enum, hk.required, fun e => ?_, fun e xs hx x hm => ?_, fun e o ho kv hm hn => ?_, fun e => ?_,
    fun e => ?_⟩
  · obtain ⟨s, hs, hr⟩ := hk.ref e
    exact ⟨s, hs, (h.ref e s hs j).mp hr⟩
  · exact (h.items e x).mp (hk.items e xs hx x hm)
  · exact (h.values e _).mp (hk.values e o ho kv hm hn)
  · have := hk.properties e
    cases v with
    | dict ps =>
      rw [Properties, propertiesAll_iff] at this ⊢
      intro p hp o w ho hw
      exact (h.properties e ps rfl p hp w).mp (this p hp o w ho hw)
    | _ => exact this.elim
  · have := hk.oneOf e
    cases v with
    | list ss =>
      rw [OneOf] at this ⊢
      exact (exactlyOne_same (h.oneOf e ss rfl)).mp this
    | _ => exact this.elim

theorem valid_same {refs refs' : String → PyVal → Prop} {d : Dict} (h : ∀ kv ∈ d, SameKey refs refs' kv.1 kv.2) :
    Same refs refs' (.dict d) := by
  intro j
  rw [valid_iff, valid_iff]
  exact ⟨fun hh kv hm => key_same (h kv hm) (hh kv hm), fun hh kv hm => key_same (h kv hm).symm (hh kv hm)⟩

theorem same_idle {refs refs' : String → PyVal → Prop} {k : String} {v : PyVal}
    (h : k ∉ ["$ref", "items", "additionalProperties", "properties", "oneOf"]) : SameKey refs refs' k v := by
  simp at h
  exact ⟨fun e => absurd e h.1, fun e => absurd e h.2.1, fun e => absurd e h.2.2.1, fun e => absurd e h.2.2.2.1,
    fun e => absurd e h.2.2.2.2⟩

theorem same_describe {refs refs' : String → PyVal → Prop} {a : Attrs} {e : Dict} (hn : (Dict.keys e).Nodup)
    (h : Same refs refs' (.dict e)) : Same refs refs' (.dict (Dict.update (describe a) e)) := by
  intro j
  rw [valid_describe hn, valid_describe hn, h j]

/-- What is written for a type depends only on the aliases of the types in it. -/
theorem convert_congr {refs' : String → PyVal → Prop} {t : RType}
    (hb : Inlined live t) {n : Nat} {b : Bool} {d : Dict}
    (h : convertF live n b t = .ok d)
    (hr : ∀ x s, Inside x t → ¬ IsReference x → x.attrs.alias = .str s → (b = false → sizeOf x < sizeOf t) →
      ∀ j, refs ("#/$defs/" ++ s) j ↔ refs' ("#/$defs/" ++ s) j) :
    Same refs refs' (.dict d) := by
  induction n generalizing b t d with
  | zero => cases h
  | succ n ih =>
    simp only [convertF] at h
    have nested : ∀ {m d}, Inside m t → sizeOf m < sizeOf t →
        convertF live n true m = .ok d → Same refs refs' (.dict d) := by
      intro m d hi hlt hm
      refine ih (hb.mono hi) hm fun x s hx hxr hs _ => hr x s (inside_trans hi hx) hxr hs fun _ => ?_
      have := inside_size hx
      omega
    split at h
    · rename_i alias ha
      cases h
      split at ha
      · rename_i hbt
        obtain ⟨h1, h2⟩ := ownAlias_some ha
        intro j
        rw [valid_ref, valid_ref]
        exact hr t alias .refl h1 h2 (fun hf => by rw [hf] at hbt; cases hbt) j
      · cases ha
    · split at h
      · rename_i ts a _
        have step : ∀ m ∈ ts, ∀ {d}, convertF live n true m = .ok d → Same refs refs' (.dict d) := by
          intro m hm d hd
          refine nested (.member hm .refl) ?_ hd
          have := List.sizeOf_lt_of_mem hm
          simp; omega
        split at h
        · split at h
          · rename_i m hf
            obtain ⟨d', hd', h⟩ := ok_bind h
            cases h
            have hm : m ∈ ts := (List.mem_filter.mp (by rw [hf]; simp : m ∈ ts.filter _)).1
            exact same_describe (convertF_nodup hd') (step m hm hd')
          · cases h
        · obtain ⟨ds, hds, h⟩ := ok_bind h
          cases h
          refine same_describe (by simp [Dict.keys]) (valid_same fun kv hm => ?_)
          cases List.mem_singleton.mp hm
          refine ⟨by simp, by simp, by simp, by simp, fun _ ss e s hs => ?_⟩
          cases e
          obtain ⟨m, hm, d', hd', rfl⟩ := convertAll_ok hds s hs
          exact step m hm hd'
      · rename_i fs a _
        obtain ⟨⟨props, req⟩, hf, h⟩ := ok_bind h
        cases h
        refine same_describe (by split <;> simp [Dict.keys]) (valid_same fun kv hm => ?_)
        simp only [List.cons_append, List.nil_append, List.mem_cons] at hm
        rcases hm with rfl | rfl | hm
        · exact same_idle (by simp)
        · refine ⟨by simp, by simp, by simp, fun _ ps e p hp => ?_, by simp⟩
          cases e
          obtain ⟨_, g⟩ := convertFields_mem hf
          rcases g p.1 p.2 hp with hp | ⟨m, hm, d', _, hd', e⟩
          · cases hp
          · rw [e]
            refine nested (.field hm .refl) ?_ hd'
            have := List.sizeOf_lt_of_mem hm
            simp; omega
        · split at hm
          · cases hm
          · cases List.mem_singleton.mp hm
            exact same_idle (by simp)
      · rename_i m l v a _
        obtain ⟨d', hd', h⟩ := ok_bind h
        cases h
        refine same_describe (by simp [Dict.keys]) (valid_same fun kv hm => ?_)
        simp only [List.mem_cons, List.not_mem_nil, or_false] at hm
        rcases hm with rfl | rfl
        · exact same_idle (by simp)
        · exact ⟨by simp, fun _ => nested (.list .refl) (by simp; omega) hd', by simp, by simp, by simp⟩
      · rename_i k m a _
        obtain ⟨d', hd', h⟩ := ok_bind h
        cases h
        refine same_describe (by simp [Dict.keys]) (valid_same fun kv hm => ?_)
        simp only [List.mem_cons, List.not_mem_nil, or_false] at hm
        rcases hm with rfl | rfl
        · exact same_idle (by simp)
        · exact ⟨by simp, by simp, fun _ => nested (.value .refl) (by simp; omega) hd', by simp, by simp⟩
      all_goals try
        (cases h
         refine same_describe (by simp [Dict.keys]) (valid_same fun kv hm => ?_)
         exact same_idle (by simp at hm; grind))
      rename_i r a _
      have h' : convertF live (n + 1) false (.proxy r a) = .ok d := by
        simp only [convertF, Bool.false_eq_true, if_false]
        exact h
      obtain ⟨m, u, e, hu, h'⟩ := reference_written (hb.inlined r a .refl) h'
      cases e
      have hc := hb.clean r a u .refl hu
      refine ih (clean_inlined hc) h' fun x s hx hxr hs _ => ?_
      rw [hc.alias x (inside_spans hx) hxr] at hs
      cases hs

/-- What references mean, up to a depth. -/
def level (defs : Dict) : Nat → String → PyVal → Prop
  | 0, _, _ => False
  | k + 1, r, j => ∃ s e, r = "#/$defs/" ++ s ∧ Dict.get? defs s = some e ∧ Valid (level defs k) e j

theorem defs_inj {s s' : String} (h : "#/$defs/" ++ s = "#/$defs/" ++ s') : s = s' := by
  have := congrArg String.toList h
  simp at this
  exact String.toList_inj.mp this

theorem level_succ {defs : Dict} {k : Nat} {s : String} {e : PyVal} (h : Dict.get? defs s = some e) (j : PyVal) :
    level defs (k + 1) ("#/$defs/" ++ s) j ↔ Valid (level defs k) e j := by
  rw [level]
  constructor
  · rintro ⟨s', e', hs, he, hv⟩
    cases defs_inj hs
    rw [h] at he
    cases he
    exact hv
  · exact fun hv => ⟨s, e, rfl, h, hv⟩

theorem level_stable {t : RType} {n : Nat} {defs : Dict} (hb : Inlined live t)
    (hd : ∀ u s, Inside u t → ¬ IsReference u → u.attrs.alias = .str s →
      ∃ d, Dict.get? defs s = some (.dict d) ∧ convertF live n false u = .ok d) (k : Nat) :
    ∀ u s, Inside u t → ¬ IsReference u → u.attrs.alias = .str s → sizeOf u ≤ k → ∀ j,
      level defs k ("#/$defs/" ++ s) j ↔ level defs (k + 1) ("#/$defs/" ++ s) j := by
  induction k with
  | zero =>
    intro u s _ _ _ hk
    cases u <;> simp at hk <;> omega
  | succ k ih =>
    intro u s hi hr hs hk j
    obtain ⟨d, h1, h2⟩ := hd u s hi hr hs
    rw [level_succ h1, level_succ h1]
    refine convert_congr (hb.mono hi) h2 (fun x s' hx hxr hxs hlt => ?_) j
    have := hlt rfl
    exact ih x s' (inside_trans hi hx) hxr hxs (by omega)

end Recap.JsonData
