import Verif.JsonDataSpec
import Verif.JsonSchemaRead

/-!
# Lemmas on JSON values, and the values of what is read
-/

set_option autoImplicit false

namespace Recap.JsonData

open Json
open Avro.Spec (IntValue)
open Values (Fits)
open Json.Spec (nameOf OptionalField Without WithoutAll WithoutPairs)

variable {refs : String → PyVal → Prop} {live : Registry}

/-! ## Validation, keyword by keyword -/

/-- The value is valid against this keyword. -/
structure Key (refs : String → PyVal → Prop) (names : List String) (k : String) (v j : PyVal) : Prop where
  type : k = "type" → TypeOk v j
  enum : k = "enum" → EnumOk v j
  required : k = "required" → RequiredOk v j
  ref : k = "$ref" → ∃ s, v = .str s ∧ refs s j
  items : k = "items" → ∀ xs, j = .list xs → ∀ x ∈ xs, Valid refs v x
  values : k = "additionalProperties" → ∀ o, j = .dict o → ∀ kv ∈ o, Prod.fst kv ∉ names → Valid refs v (Prod.snd kv)
  properties : k = "properties" → Properties refs v j
  oneOf : k = "oneOf" → OneOf refs v j

theorem keywords_iff {names : List String} {d : Dict} {j : PyVal} :
    Keywords refs names d j ↔ ∀ kv ∈ d, Key refs names kv.1 kv.2 j := by
  induction d with
  | nil => simp [Keywords]
  | cons kv d ih =>
    obtain ⟨k, v⟩ := kv
    simp only [Keywords, ih, List.mem_cons, forall_eq_or_imp]
    constructor
    · rintro ⟨h1, h2, h3, h4, h5, h6, h7, h8, h9⟩
      exact ⟨⟨h1, h2, h3, h4, h5, h6, h7, h8⟩, h9⟩
    · rintro ⟨⟨h1, h2, h3, h4, h5, h6, h7, h8⟩, h9⟩
      exact ⟨h1, h2, h3, h4, h5, h6, h7, h8, h9⟩

theorem valid_iff {d : Dict} {j : PyVal} :
    Valid refs (.dict d) j ↔ ∀ kv ∈ d, Key refs (propertyNames d) kv.1 kv.2 j := by
  rw [Valid, keywords_iff]

theorem valid_get {d : Dict} {j : PyVal} (h : Valid refs (.dict d) j) {k : String} {v : PyVal}
    (hk : Dict.get? d k = some v) : Key refs (propertyNames d) k v j :=
  valid_iff.mp h (k, v) (Dict.mem_of_get? hk)

theorem propertiesAll_iff {ps : Dict} {j : PyVal} :
    PropertiesAll refs ps j ↔ ∀ p ∈ ps, ∀ o v, j = .dict o → Dict.get? o p.1 = some v → Valid refs p.2 v := by
  induction ps with
  | nil => simp [PropertiesAll]
  | cons p ps ih =>
    obtain ⟨n, s⟩ := p
    simp only [PropertiesAll, ih, List.mem_cons, forall_eq_or_imp]

theorem noneOf_iff {ss : List PyVal} {j : PyVal} : NoneOf refs ss j ↔ ∀ s ∈ ss, ¬Valid refs s j := by
  induction ss with
  | nil => simp [NoneOf]
  | cons s ss ih => simp [NoneOf, ih]

/-! ## Kinds of values -/

theorem kind_null {j : PyVal} (h : Kind "null" j) : j = .none := by
  generalize hs : "null" = s at h
  cases h <;> simp_all

theorem kind_boolean {j : PyVal} (h : Kind "boolean" j) : ∃ b, j = .bool b := by
  generalize hs : "boolean" = s at h
  cases h <;> simp_all

theorem kind_integer {j : PyVal} (h : Kind "integer" j) :
    (∃ i, j = .int i) ∨ ∃ (q : Int) (e : Nat), j = .float (q * 2 ^ e) e := by
  generalize hs : "integer" = s at h
  cases h with
  | integer => exact .inl ⟨_, rfl⟩
  | point => exact .inr ⟨_, _, rfl⟩
  | _ => simp at hs

theorem kind_number {j : PyVal} (h : Kind "number" j) : (∃ i, j = .int i) ∨ ∃ m e, j = .float m e := by
  generalize hs : "number" = s at h
  cases h with
  | whole => exact .inl ⟨_, rfl⟩
  | number => exact .inr ⟨_, _, rfl⟩
  | _ => simp at hs

theorem kind_string {j : PyVal} (h : Kind "string" j) : ∃ s, j = .str s := by
  generalize hs : "string" = s at h
  cases h <;> simp_all

theorem kind_array {j : PyVal} (h : Kind "array" j) : ∃ xs, j = .list xs := by
  generalize hs : "array" = s at h
  cases h <;> simp_all

theorem kind_object {j : PyVal} (h : Kind "object" j) : ∃ o, j = .dict o := by
  generalize hs : "object" = s at h
  cases h <;> simp_all

/-! ## Moderate values -/

theorem significant_small {i : Int} (h : IntValue 32 true i) : Significant (digits 64) i := by
  refine ⟨i, 0, ?_, by simp⟩
  simp [IntValue] at h
  simp [digits]
  omega


theorem moderate_list {xs : List PyVal} (h : Moderate (.list xs)) {x : PyVal} (hx : x ∈ xs) : Moderate x := by
  simp only [Moderate] at h
  induction xs with
  | nil => cases hx
  | cons y xs ih =>
    simp only [ModerateAll] at h
    rcases List.mem_cons.mp hx with rfl | hx
    · exact h.1
    · exact ih h.2 hx

theorem moderate_dict {o : Dict} (h : Moderate (.dict o)) {k : String} {x : PyVal} (hx : (k, x) ∈ o) : Moderate x := by
  simp only [Moderate] at h
  induction o with
  | nil => cases hx
  | cons y o ih =>
    obtain ⟨k', y⟩ := y
    simp only [ModeratePairs] at h
    rcases List.mem_cons.mp hx with e | hx
    · cases e; exact h.1
    · exact ih h.2 hx

/-! ## Attributes do not matter -/

theorem carries_with {t : RType} {j : PyVal} (a : Attrs) (h : Carries live true t j) (ht : t.isProxy = false) :
    Carries live true (t.withAttrs a) j := by
  cases h with
  | null => exact .null
  | bool => exact .bool
  | int h => exact .int h
  | point h => exact .point h
  | float h => exact .float h
  | whole h => exact .whole h
  | string h => exact .string h
  | bytes => exact .bytes
  | enum h => exact .enum h
  | list h => exact .list h
  | map h1 h2 => exact .map h1 h2
  | struct h1 h2 h3 => exact .struct h1 h2 h3
  | union h1 h2 h3 => exact .union h1 (.inl rfl) h3
  | reference => cases ht

theorem mem_addNull {ts : List RType} {t : RType} (h : t ∈ ts) : t ∈ RType.addNull ts := by
  unfold RType.addNull
  split
  · exact h
  · exact List.mem_cons_of_mem _ h

theorem isProxy_withAttrs (t : RType) (a : Attrs) : (t.withAttrs a).isProxy = t.isProxy := by cases t <;> rfl

theorem carries_makeNullable {t : RType} {j : PyVal} (h : Carries live true t j) (ht : t.isProxy = false) :
    Carries live true t.makeNullable j ∧ t.makeNullable.isProxy = false := by
  unfold RType.makeNullable
  split
  · cases h with
    | union h1 _ h3 => exact ⟨.union (mem_addNull h1) (.inl rfl) h3, rfl⟩
  · exact ⟨.union (mem_addNull (List.mem_singleton.mpr rfl)) (.inl rfl) (carries_with _ h ht), rfl⟩

theorem carries_optionalField {t : RType} {j : PyVal} (h : Carries live true t j) (ht : t.isProxy = false) :
    Carries live true (optionalField t) j ∧ (optionalField t).isProxy = false := by
  obtain ⟨h', ht'⟩ := carries_makeNullable h ht
  unfold optionalField
  simp only
  repeat' split
  · exact ⟨h, ht⟩
  · exact ⟨carries_with _ h ht, by rw [isProxy_withAttrs]; exact ht⟩
  · exact ⟨h', ht'⟩
  · exact ⟨carries_with _ h' ht', by rw [isProxy_withAttrs]; exact ht'⟩

theorem attrs_withAttrs (t : RType) (a : Attrs) : (t.withAttrs a).attrs = a := by cases t <;> rfl

theorem optionalField_default (t : RType) : "default" ∈ Dict.keys (optionalField t).attrs.extra := by
  unfold optionalField
  simp only
  repeat' split
  all_goals first
    | (rename_i h; exact Dict.has_iff.mp h)
    | (rw [attrs_withAttrs]
       simp only
       rw [Dict.keys_set]
       split <;> simp_all)

theorem named_default {name : String} {t : RType} (h : "default" ∈ Dict.keys t.attrs.extra) :
    "default" ∈ Dict.keys (named name t).attrs.extra := by
  rw [named, attrs_withAttrs]
  simp only
  rw [Dict.keys_set]
  split <;> simp_all

theorem named_name (name : String) (t : RType) : nameOf (named name t) = some (.str name) := by
  rw [nameOf, named, attrs_withAttrs]
  exact Dict.get?_set_self _ _ _

/-! ## Reading -/

theorem without_dict {keys : List String} {d : Dict} (h : Without keys (.dict d)) :
    (∀ k v, Dict.get? d k = some v → k ∉ keys ∧ Without keys v) ∧ ∀ k v, (k, v) ∈ d → Without keys v := by
  have : ∀ k v, (k, v) ∈ d → k ∉ keys ∧ Without keys v := by
    simp only [Without] at h
    induction d with
    | nil => intro k v hm; cases hm
    | cons kv d ih =>
      obtain ⟨k', v'⟩ := kv
      simp only [WithoutPairs] at h
      intro k v hm
      rcases List.mem_cons.mp hm with e | hm
      · cases e; exact ⟨h.1, h.2.1⟩
      · exact ih h.2.2 k v hm
  exact ⟨fun k v hg => this k v (Dict.mem_of_get? hg), fun k v hm => (this k v hm).2⟩

theorem without_list {keys : List String} {xs : List PyVal} (h : Without keys (.list xs)) {x : PyVal} (hx : x ∈ xs) :
    Without keys x := by
  simp only [Without] at h
  induction xs with
  | nil => cases hx
  | cons y xs ih =>
    simp only [WithoutAll] at h
    rcases List.mem_cons.mp hx with rfl | hx
    · exact h.1
    · exact ih h.2 hx

theorem parseAll_mem {f : PyVal → Ids → Except PyErr (RType × Ids)} {xs : List PyVal} {ids ids' : Ids}
    {ts : List RType} (h : Json.parseAll f xs ids = .ok (ts, ids')) {x : PyVal} (hx : x ∈ xs) :
    ∃ t ∈ ts, ∃ i i', f x i = .ok (t, i') := by
  induction xs generalizing ids ts ids' with
  | nil => cases hx
  | cons y xs ih =>
    unfold Json.parseAll at h
    obtain ⟨⟨t, i⟩, h1, h⟩ := ok_bind h
    obtain ⟨⟨ts', i'⟩, h2, h⟩ := ok_bind h
    cases h
    rcases List.mem_cons.mp hx with rfl | hx
    · exact ⟨t, by simp, _, _, h1⟩
    · obtain ⟨t', ht', h'⟩ := ih h2 hx
      exact ⟨t', List.mem_cons_of_mem _ ht', h'⟩

theorem parseProps_mem {f : PyVal → Ids → Except PyErr (RType × Ids)} {req : PyVal} {ps : Dict} {ids ids' : Ids}
    {ts : List RType} (h : parseProps f req ps ids = .ok (ts, ids')) {u : RType} (hu : u ∈ ts) :
    ∃ name prop t listed i i', (name, prop) ∈ ps ∧ f prop i = .ok (t, i') ∧ req.containsStr name = .ok listed ∧
      u = named name (if listed then t else optionalField t) := by
  induction ps generalizing ids ts ids' with
  | nil => cases h; cases hu
  | cons p ps ih =>
    obtain ⟨name, prop⟩ := p
    unfold parseProps at h
    obtain ⟨⟨t, i⟩, h1, h⟩ := ok_bind h
    obtain ⟨listed, h2, h⟩ := ok_bind h
    obtain ⟨⟨ts', i'⟩, h3, h⟩ := ok_bind h
    cases h
    rcases List.mem_cons.mp hu with rfl | hu
    · exact ⟨name, prop, t, listed, _, _, by simp, h1, h2, rfl⟩
    · obtain ⟨n, p, t', l, i1, i2, g1, g2, g3, g4⟩ := ih h3 hu
      exact ⟨n, p, t', l, i1, i2, List.mem_cons_of_mem _ g1, g2, g3, g4⟩

/-- The references. -/
def refKeys : List String := ["$ref", "$dynamicRef"]

/-- A valid value is one of the type that is read, if it is moderate. -/
theorem instance_read {env : Url.Env} {n : Nat} {v : PyVal} {ids ids' : Ids} {t : RType}
    (h : parseF env n v ids = .ok (t, ids')) (hw : Without refKeys v) {j : PyVal}
    (hj : Valid refs (schemaOf v) j) (hm : Moderate j) : Carries live true t j ∧ t.isProxy = false := by
  induction n generalizing v ids ids' t j with
  | zero => cases h
  | succ n ih =>
    unfold parseF at h
    simp only at h
    obtain ⟨⟨e, ids1⟩, _, h⟩ := ok_bind h
    simp only at h
    split at h
    · rename_i d hd
      rw [hd] at hj
      have hwd : Without refKeys (.dict d) := by
        cases v with
        | str s => simp [schemaOf] at hd; subst hd; simp [Without, WithoutPairs, refKeys]
        | _ => simp [schemaOf] at hd <;> (subst hd; exact hw)
      have hr : Dict.get? d "$ref" = .none ∧ Dict.get? d "$dynamicRef" = .none := by
        constructor
        · cases hg : Dict.get? d "$ref" with
          | none => rfl
          | some v => exact absurd ((without_dict hwd).1 _ _ hg).1 (by simp [refKeys])
        · cases hg : Dict.get? d "$dynamicRef" with
          | none => rfl
          | some v => exact absurd ((without_dict hwd).1 _ _ hg).1 (by simp [refKeys])
      have leaf : ∀ {t i}, parseLeaf env e d ids1 = .ok (t, i) → Carries live true t j ∧ t.isProxy = false := by
        intro t i h
        simp only [parseLeaf, hr.1, hr.2] at h
        repeat' split at h
        · rename_i ht
          have := (valid_get hj ht).type rfl
          cases h
          obtain ⟨s, rfl⟩ := kind_string this
          unfold parseString
          repeat' split
          · exact ⟨.bytes, rfl⟩
          all_goals exact ⟨.string (.inl rfl), rfl⟩
        · rename_i ht
          have := (valid_get hj ht).type rfl
          cases h
          rcases kind_number this with ⟨i, rfl⟩ | ⟨m, e, rfl⟩
          · exact ⟨.whole (significant_small hm), rfl⟩
          · exact ⟨.float hm.1, rfl⟩
        · rename_i ht
          have := (valid_get hj ht).type rfl
          cases h
          rcases kind_integer this with ⟨i, rfl⟩ | ⟨q, e, rfl⟩
          · exact ⟨.int hm, rfl⟩
          · exact ⟨.point (hm.2 q rfl), rfl⟩
        · rename_i ht
          have := (valid_get hj ht).type rfl
          cases h
          obtain ⟨b, rfl⟩ := kind_boolean this
          exact ⟨.bool, rfl⟩
        · rename_i ht
          have := (valid_get hj ht).type rfl
          cases h
          cases kind_null this
          exact ⟨.null, rfl⟩
        all_goals cases h
      have array : ∀ {t i items}, Dict.get? d "items" = items →
          parseDict.parseArray env (parseF env n) e d ids1 items = .ok (t, i) → Carries live true t j ∧ t.isProxy = false := by
        intro t i items hi h
        unfold parseDict.parseArray at h
        split at h
        · split at h
          · rename_i w ht
            obtain ⟨⟨u, i'⟩, hu, h⟩ := ok_bind h
            cases h
            have hk := (valid_get hj ht).type rfl
            obtain ⟨xs, rfl⟩ := kind_array hk
            · refine ⟨.list fun x hx => ?_, rfl⟩
              have hv := (valid_get hj hi).items rfl xs rfl x hx
              refine (ih hu ((without_dict hwd).1 _ _ hi).2 ?_ (moderate_list hm hx)).1
              cases w with
              | str s => simp [Valid] at hv
              | _ => exact hv
          · exact leaf h
        · exact leaf h
      unfold parseDict at h
      split at h
      · rename_i xs ht
        obtain ⟨⟨ts, i⟩, hp, h⟩ := ok_bind h
        cases h
        obtain ⟨s, hs, hk⟩ := (valid_get hj ht).type rfl
        obtain ⟨u, hu, i1, i2, hf⟩ := parseAll_mem hp hs
        refine ⟨.union hu (.inl rfl) (ih hf (by simp [Without]) ?_ hm).1, rfl⟩
        rw [schemaOf, valid_iff]
        intro kv hkv
        simp at hkv
        subst hkv
        exact ⟨fun _ => hk, by simp, by simp, by simp, by simp, by simp, by simp, by simp⟩
      · split at h
        · rename_i props hprops
          split at h
          · rename_i ht
            split at h
            · rename_i ps
              obtain ⟨⟨ts, i⟩, hp, h⟩ := ok_bind h
              cases h
              have hk := (valid_get hj ht).type rfl
              obtain ⟨o, rfl⟩ := kind_object hk
              · have hps := (valid_get hj hprops).properties rfl
                rw [Properties, propertiesAll_iff] at hps
                refine ⟨.struct (fun f hf => ?_) (fun f hf name v hn hv => ?_) (fun f hf name hn hv => ?_), rfl⟩
                · obtain ⟨name, _, u, l, _, _, _, _, _, rfl⟩ := parseProps_mem hp hf
                  exact ⟨name, named_name ..⟩
                · obtain ⟨name', prop, u, l, i1, i2, h1, h2, h3, rfl⟩ := parseProps_mem hp hf
                  rw [named_name] at hn
                  cases hn
                  have hv' := hps _ h1 o v rfl hv
                  have hc : Carries live true u v ∧ u.isProxy = false := by
                    refine ih h2 ((without_dict ((without_dict hwd).1 _ _ hprops).2).2 _ _ h1) ?_
                      (moderate_dict hm (Dict.mem_of_get? hv))
                    cases prop with
                    | str s => simp [Valid] at hv'
                    | _ => exact hv'
                  split
                  · exact carries_with _ hc.1 hc.2
                  · obtain ⟨h1, h2⟩ := carries_optionalField hc.1 hc.2
                    exact carries_with _ h1 h2
                · obtain ⟨name', prop, u, l, i1, i2, h1, h2, h3, rfl⟩ := parseProps_mem hp hf
                  rw [named_name] at hn
                  cases hn
                  simp only [Omissible, if_true]
                  cases l with
                  | false => exact named_default (optionalField_default u)
                  | true =>
                    exfalso
                    cases hreq : Dict.get? d "required" with
                    | none =>
                      simp [Dict.getD, hreq, PyVal.containsStr] at h3
                    | some r =>
                      have := (valid_get hj hreq).required rfl
                      cases r with
                      | list xs =>
                        simp only [Dict.getD, hreq, Option.getD_some, PyVal.containsStr, Except.ok.injEq, List.any_eq_true] at h3
                        obtain ⟨x, hx, hxe⟩ := h3
                        obtain ⟨m, rfl, hm'⟩ := this o rfl x hx
                        simp [PyVal.pyEq] at hxe
                        subst hxe
                        exact absurd hm' (Dict.get?_eq_none_iff.mp hv)
                      | _ => exact this
            · cases h
          · exact array rfl h
        · exact array rfl h
    · cases h

end Recap.JsonData
