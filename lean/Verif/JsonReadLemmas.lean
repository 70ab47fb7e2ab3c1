import Verif.JsonReadSpec
import Verif.JsonDataLemmas
import Verif.JsonSchemaRead

/-!
# Lemmas on the JSON values of types that are read (C138)
-/

set_option autoImplicit false

namespace Recap.JsonData

open Json
open Avro.Spec (IntValue)
open Values (Fits)
open Json.Spec (nameOf OptionalField Without WithoutPairs)

variable {refs : String → PyVal → Prop} {live : Registry}

theorem carries_without {t : RType} {j : PyVal} {a : Attrs} (h : Carries live true (t.withAttrs a) j)
    (ht : t.isProxy = false) : Carries live true t j := by
  have := carries_with t.attrs h (by rw [isProxy_withAttrs]; exact ht)
  have e : (t.withAttrs a).withAttrs t.attrs = t := by cases t <;> rfl
  rwa [e] at this

theorem of_addNull {ts : List RType} {t : RType} (h : t ∈ RType.addNull ts) : t ∈ ts ∨ t = .null {} := by
  unfold RType.addNull at h
  split at h
  · exact .inl h
  · rcases List.mem_cons.mp h with rfl | h
    · exact .inr rfl
    · exact .inl h

theorem carries_null {a : Attrs} {j : PyVal} (h : Carries live true (.null a) j) : j = .none := by cases h; rfl

theorem addNull_null (ts : List RType) : ∃ t ∈ RType.addNull ts, t.isNull = true := by
  unfold RType.addNull
  split
  · rename_i h
    simpa [List.any_eq_true] using h
  · exact ⟨.null {}, by simp, rfl⟩

theorem isNull_carries {t : RType} (h : t.isNull = true) : Carries live true t .none := by
  cases t <;> simp [RType.isNull] at h
  exact .null

theorem makeNullable_iff {t : RType} {j : PyVal} (ht : t.isProxy = false) :
    Carries live true t.makeNullable j ↔ j = .none ∨ Carries live true t j := by
  constructor
  · intro h
    unfold RType.makeNullable at h
    split at h
    · cases h with
      | union h1 _ h3 =>
        rcases of_addNull h1 with h1 | rfl
        · exact .inr (.union h1 (.inl rfl) h3)
        · exact .inl (carries_null h3)
    · cases h with
      | union h1 _ h3 =>
        rcases of_addNull h1 with h1 | rfl
        · cases List.mem_singleton.mp h1
          exact .inr (carries_without h3 ht)
        · exact .inl (carries_null h3)
  · rintro (rfl | h)
    · unfold RType.makeNullable
      split
      · obtain ⟨u, hu, hn⟩ := addNull_null _
        exact .union hu (.inl rfl) (isNull_carries hn)
      · obtain ⟨u, hu, hn⟩ := addNull_null _
        exact .union hu (.inl rfl) (isNull_carries hn)
    · exact (carries_makeNullable h ht).1

theorem makeNullable_proxy {t : RType} : t.makeNullable.isProxy = false := by
  unfold RType.makeNullable; split <;> rfl

theorem optionalField_iff {t : RType} {j : PyVal} (ht : t.isProxy = false) :
    Carries live true (optionalField t) j ↔ j = .none ∨ Carries live true t j := by
  have key : ∀ {u : RType}, u.isProxy = false → (Carries live true u j ↔ j = .none ∨ Carries live true t j) →
      (Carries live true (if Dict.has u.attrs.extra "default" then u
        else u.withAttrs { u.attrs with extra := Dict.set u.attrs.extra "default" .none }) j ↔
          j = .none ∨ Carries live true t j) := by
    intro u hu h
    split
    · exact h
    · rw [← h]
      exact ⟨fun h => carries_without h hu, fun h => carries_with _ h hu⟩
  unfold optionalField
  simp only
  split
  · rename_i hn
    refine key ht ⟨.inr, ?_⟩
    rintro (rfl | h)
    · cases t with
      | null a => exact .null
      | union ts a =>
        simp only [RType.isNullable, List.any_eq_true] at hn
        obtain ⟨u, hu, hn⟩ := hn
        exact .union hu (.inl rfl) (isNull_carries hn)
      | _ => simp [RType.isNullable] at hn
    · exact h
  · exact key makeNullable_proxy (makeNullable_iff ht)

theorem optionalField_proxy {t : RType} (ht : t.isProxy = false) : (optionalField t).isProxy = false := by
  unfold optionalField
  simp only
  repeat' split
  all_goals simp [isProxy_withAttrs, makeNullable_proxy, ht]

theorem named_iff {t : RType} {j : PyVal} {name : String} (ht : t.isProxy = false) :
    Carries live true (named name t) j ↔ Carries live true t j :=
  ⟨fun h => carries_without h ht, fun h => carries_with _ h ht⟩

/-- Each alternative is that of a schema. -/
theorem parseAll_back {f : PyVal → Ids → Except PyErr (RType × Ids)} {xs : List PyVal} {ids ids' : Ids}
    {ts : List RType} (h : Json.parseAll f xs ids = .ok (ts, ids')) {t : RType} (ht : t ∈ ts) :
    ∃ x ∈ xs, ∃ i i', f x i = .ok (t, i') := by
  induction xs generalizing ids ts ids' with
  | nil => cases h; cases ht
  | cons y xs ih =>
    unfold Json.parseAll at h
    obtain ⟨⟨u, i⟩, h1, h⟩ := ok_bind h
    obtain ⟨⟨ts', i'⟩, h2, h⟩ := ok_bind h
    cases h
    rcases List.mem_cons.mp ht with rfl | ht
    · exact ⟨y, by simp, _, _, h1⟩
    · obtain ⟨x, hx, h'⟩ := ih h2 ht
      exact ⟨x, List.mem_cons_of_mem _ hx, h'⟩

/-- Each property has its field. -/
theorem parseProps_back {f : PyVal → Ids → Except PyErr (RType × Ids)} {req : PyVal} {ps : Dict} {ids ids' : Ids}
    {ts : List RType} (h : parseProps f req ps ids = .ok (ts, ids')) {name : String} {prop : PyVal}
    (hp : (name, prop) ∈ ps) :
    ∃ t listed i i', f prop i = .ok (t, i') ∧ req.containsStr name = .ok listed ∧
      named name (if listed then t else optionalField t) ∈ ts := by
  induction ps generalizing ids ts ids' with
  | nil => cases hp
  | cons p ps ih =>
    obtain ⟨n, q⟩ := p
    unfold parseProps at h
    obtain ⟨⟨t, i⟩, h1, h⟩ := ok_bind h
    obtain ⟨listed, h2, h⟩ := ok_bind h
    obtain ⟨⟨ts', i'⟩, h3, h⟩ := ok_bind h
    cases h
    rcases List.mem_cons.mp hp with e | hp
    · cases e
      exact ⟨t, listed, _, _, h1, h2, by simp⟩
    · obtain ⟨t', l, i1, i2, g1, g2, g3⟩ := ih h3 hp
      exact ⟨t', l, i1, i2, g1, g2, List.mem_cons_of_mem _ g3⟩

theorem asked_iff {d : Dict} {name : String} {listed : Bool}
    (h : (Dict.getD d "required" (.list [])).containsStr name = .ok listed) : Asked d name ↔ listed = true := by
  unfold Asked
  cases hr : Dict.get? d "required" with
  | none =>
    simp [Dict.getD, hr, PyVal.containsStr] at h
    simp [← h]
  | some r =>
    simp [Dict.getD, hr] at h
    simp [h]

theorem named_default_iff {name : String} {t : RType} :
    "default" ∈ Dict.keys (named name t).attrs.extra ↔ "default" ∈ Dict.keys t.attrs.extra := by
  rw [named, attrs_withAttrs]
  simp only
  rw [Dict.keys_set]
  split <;> simp_all

/-- The values of the type that is read. -/
theorem nearly_read {env : Url.Env} {n : Nat} {v : PyVal} {ids ids' : Ids} {t : RType}
    (h : parseF env n v ids = .ok (t, ids')) (hw : Without refKeys v) :
    t.isProxy = false ∧ ("default" ∈ Dict.keys t.attrs.extra ↔ HasDefault v) ∧
      ∀ j, Carries live true t j ↔ Nearly v j := by
  induction n generalizing v ids ids' t with
  | zero => cases h
  | succ n ih =>
    unfold parseF at h
    simp only at h
    obtain ⟨⟨e, ids1⟩, he, h⟩ := ok_bind h
    simp only at h
    split at h
    · rename_i d hd
      rw [hd] at he
      have hdef := extra_default he
      have hsame : (HasDefault v ↔ "default" ∈ Dict.keys d) ∧ ∀ j, Nearly v j ↔ Nearly (.dict d) j := by
        cases v with
        | str s =>
          simp only [schemaOf, PyVal.dict.injEq] at hd
          subst hd
          exact ⟨by simp [HasDefault, Dict.keys], fun j => ⟨fun h => by cases h; assumption, .word⟩⟩
        | dict d' =>
          simp only [schemaOf, PyVal.dict.injEq] at hd
          subst hd
          exact ⟨by simp [HasDefault], fun j => Iff.rfl⟩
        | _ => simp [schemaOf] at hd
      have hwd : Without refKeys (.dict d) := by
        cases v with
        | str s => simp [schemaOf] at hd; subst hd; simp [Without, WithoutPairs, refKeys]
        | _ => simp [schemaOf] at hd <;> (subst hd; exact hw)
      rw [hsame.1, ← hdef]
      simp only [hsame.2]
      clear hsame hd hw
      have hr : Dict.get? d "$ref" = .none ∧ Dict.get? d "$dynamicRef" = .none := by
        constructor
        · cases hg : Dict.get? d "$ref" with
          | none => rfl
          | some v => exact absurd ((without_dict hwd).1 _ _ hg).1 (by simp [refKeys])
        · cases hg : Dict.get? d "$dynamicRef" with
          | none => rfl
          | some v => exact absurd ((without_dict hwd).1 _ _ hg).1 (by simp [refKeys])
      have leaf : ∀ {t i}, parseLeaf env e d ids1 = .ok (t, i) → t.isProxy = false ∧
          ("default" ∈ Dict.keys t.attrs.extra ↔ "default" ∈ Dict.keys (attrsOf e).extra) ∧
          ∀ j, Carries live true t j ↔ Nearly (.dict d) j := by
        intro t i h
        simp only [parseLeaf, hr.1, hr.2] at h
        repeat' split at h
        · rename_i ht
          cases h
          refine ⟨?_, ?_, fun j => ⟨fun h => ?_, fun h => ?_⟩⟩
          · unfold parseString; repeat' split
            all_goals rfl
          · rw [(string_attrs e _).1]
          · unfold parseString at h
            repeat' split at h
            all_goals (cases h; exact .string ht)
          · obtain ⟨s, rfl⟩ : ∃ s, j = .str s := by
              cases h <;> simp_all [Typed]
            unfold parseString
            repeat' split
            · exact .bytes
            all_goals exact .string (.inl rfl)
        · rename_i ht
          cases h
          refine ⟨rfl, Iff.rfl, fun j => ⟨fun h => ?_, fun h => ?_⟩⟩
          · cases h with
            | float h => exact .number ht h
            | whole h => exact .whole ht h
          · cases h with
            | number _ h => exact .float h
            | whole _ h => exact .whole h
            | _ => simp_all [Typed]
        · rename_i ht
          cases h
          refine ⟨rfl, Iff.rfl, fun j => ⟨fun h => ?_, fun h => ?_⟩⟩
          · cases h with
            | int h => exact .integer ht h
            | point h => exact .point ht h
          · cases h with
            | integer _ h => exact .int h
            | point _ h => exact .point h
            | _ => simp_all [Typed]
        · rename_i ht
          cases h
          refine ⟨rfl, Iff.rfl, fun j => ⟨fun h => ?_, fun h => ?_⟩⟩
          · cases h; exact .boolean ht
          · cases h with
            | boolean => exact .bool
            | _ => simp_all [Typed]
        · rename_i ht
          cases h
          refine ⟨rfl, Iff.rfl, fun j => ⟨fun h => ?_, fun h => ?_⟩⟩
          · cases h; exact .null ht
          · cases h with
            | null => exact .null
            | _ => simp_all [Typed]
        all_goals cases h
      have array : ∀ {t i items}, Dict.get? d "items" = items →
          parseDict.parseArray env (parseF env n) e d ids1 items = .ok (t, i) → t.isProxy = false ∧
          ("default" ∈ Dict.keys t.attrs.extra ↔ "default" ∈ Dict.keys (attrsOf e).extra) ∧
          ∀ j, Carries live true t j ↔ Nearly (.dict d) j := by
        intro t i items hi h
        unfold parseDict.parseArray at h
        split at h
        · split at h
          · rename_i w ht
            obtain ⟨⟨u, i'⟩, hu, h⟩ := ok_bind h
            cases h
            have := (ih hu ((without_dict hwd).1 _ _ hi).2).2.2
            refine ⟨rfl, Iff.rfl, fun j => ⟨fun h => ?_, fun h => ?_⟩⟩
            · cases h with
              | list h => exact .array ht hi fun x hx => (this x).mp (h x hx)
            · cases h with
              | array _ hi' h =>
                rw [hi] at hi'
                cases hi'
                exact .list fun x hx => (this x).mpr (h x hx)
              | _ => simp_all [Typed]
          · exact leaf h
        · exact leaf h
      unfold parseDict at h
      split at h
      · rename_i xs ht
        obtain ⟨⟨ts, i⟩, hp, h⟩ := ok_bind h
        cases h
        have hwx := ((without_dict hwd).1 _ _ ht).2
        refine ⟨rfl, Iff.rfl, fun j => ⟨fun h => ?_, fun h => ?_⟩⟩
        · cases h with
          | union hu _ h =>
            obtain ⟨x, hx, i1, i2, hf⟩ := parseAll_back hp hu
            exact .alternatives ht hx (((ih hf (without_list hwx hx)).2.2 j).mp h)
        · cases h with
          | alternatives ht' hx h =>
            rw [ht] at ht'
            cases ht'
            obtain ⟨u, hu, i1, i2, hf⟩ := parseAll_mem hp hx
            exact .union hu (.inl rfl) (((ih hf (without_list hwx hx)).2.2 j).mpr h)
          | _ => simp_all [Typed]
      · split at h
        · rename_i props items hprops
          split at h
          · rename_i ht
            split at h
            · rename_i ps
              obtain ⟨⟨ts, i⟩, hp, h⟩ := ok_bind h
              cases h
              have hwp := (without_dict ((without_dict hwd).1 _ _ hprops).2).2
              refine ⟨rfl, Iff.rfl, fun j => ⟨fun h => ?_, fun h => ?_⟩⟩
              · cases h with
                | struct _ h2 h3 =>
                  refine .object ht hprops (fun p hpm v hv hn => ?_) (fun p hpm hv => ?_)
                  · obtain ⟨name, prop⟩ := p
                    obtain ⟨u, l, i1, i2, g1, g2, g3⟩ := parseProps_back hp hpm
                    have hu := ih g1 (hwp _ _ hpm)
                    have := h2 _ g3 name v (named_name ..) hv
                    have ha := asked_iff g2
                    cases l with
                    | true => exact (hu.2.2 v).mp ((named_iff hu.1).mp this)
                    | false =>
                      have := (named_iff (optionalField_proxy hu.1)).mp this
                      rcases (optionalField_iff hu.1).mp this with rfl | this
                      · exact absurd ⟨rfl, by simp [ha]⟩ hn
                      · exact (hu.2.2 v).mp this
                  · obtain ⟨name, prop⟩ := p
                    obtain ⟨u, l, i1, i2, g1, g2, g3⟩ := parseProps_back hp hpm
                    have hu := ih g1 (hwp _ _ hpm)
                    have := h3 _ g3 name (named_name ..) hv
                    have ha := asked_iff g2
                    cases l with
                    | true =>
                      simp only [Omissible, if_true] at this
                      exact .inr (hu.2.1.mp (named_default_iff.mp this))
                    | false => exact .inl (by simp [ha])
              · cases h with
                | object _ hps' h2 h3 =>
                  rw [hprops] at hps'
                  cases hps'
                  refine .struct (fun f hf => ?_) (fun f hf name v hn hv => ?_) (fun f hf name hn hv => ?_)
                  · obtain ⟨name, _, u, l, _, _, _, _, _, rfl⟩ := parseProps_mem hp hf
                    exact ⟨name, named_name ..⟩
                  · obtain ⟨name', prop, u, l, i1, i2, g1, g2, g3, rfl⟩ := parseProps_mem hp hf
                    rw [named_name] at hn
                    cases hn
                    have hu := ih g2 (hwp _ _ g1)
                    have ha := asked_iff g3
                    have hN := h2 _ g1 v hv
                    cases l with
                    | true => exact (named_iff hu.1).mpr ((hu.2.2 v).mpr (hN (by simp [ha])))
                    | false =>
                      refine (named_iff (optionalField_proxy hu.1)).mpr ((optionalField_iff hu.1).mpr ?_)
                      by_cases hv : v = .none
                      · exact .inl hv
                      · exact .inr ((hu.2.2 v).mpr (hN (by simp [hv])))
                  · obtain ⟨name', prop, u, l, i1, i2, g1, g2, g3, rfl⟩ := parseProps_mem hp hf
                    rw [named_name] at hn
                    cases hn
                    have hu := ih g2 (hwp _ _ g1)
                    have ha := asked_iff g3
                    simp only [Omissible, if_true]
                    cases l with
                    | false => exact named_default (optionalField_default u)
                    | true =>
                      refine named_default (hu.2.1.mpr ?_)
                      rcases h3 _ g1 hv with h | h
                      · exact absurd (ha.mpr rfl) h
                      · exact h
                | _ => simp_all [Typed]
            · cases h
          · exact array rfl h
        · exact array rfl h
    · cases h

/-! ## Values that are valid -/

theorem nearly_kind {d : Dict} {s : String} {j : PyVal} (h : Nearly (.dict d) j) (hs : Typed d s) : Kind s j := by
  cases h with
  | alternatives h => rw [Typed, h] at hs; cases hs
  | null h => rw [Typed, h] at hs; cases hs; constructor
  | boolean h => rw [Typed, h] at hs; cases hs; constructor
  | integer h _ => rw [Typed, h] at hs; cases hs; constructor
  | point h _ => rw [Typed, h] at hs; cases hs; constructor
  | number h _ => rw [Typed, h] at hs; cases hs; constructor
  | whole h _ => rw [Typed, h] at hs; cases hs; constructor
  | string h => rw [Typed, h] at hs; cases hs; constructor
  | array h _ _ => rw [Typed, h] at hs; cases hs; constructor
  | object h _ _ _ => rw [Typed, h] at hs; cases hs; constructor

theorem noNull_list {xs : List PyVal} (h : NoNull (.list xs)) {x : PyVal} (hx : x ∈ xs) : NoNull x := by
  simp only [NoNull] at h
  induction xs with
  | nil => cases hx
  | cons y xs ih =>
    simp only [NoNullAll] at h
    rcases List.mem_cons.mp hx with rfl | hx
    · exact h.1
    · exact ih h.2 hx

theorem noNull_dict {o : Dict} (h : NoNull (.dict o)) {k : String} {x : PyVal} (hx : (k, x) ∈ o) :
    x ≠ .none ∧ NoNull x := by
  simp only [NoNull] at h
  induction o with
  | nil => cases hx
  | cons kv o ih =>
    obtain ⟨k', y⟩ := kv
    simp only [NoNullPairs] at h
    rcases List.mem_cons.mp hx with e | hx
    · cases e; exact ⟨h.1, h.2.1⟩
    · exact ih h.2.2 hx

/-- A name stands for no list and no object. -/
theorem nearly_word {s : String} {j : PyVal} (h : Nearly (.str s) j) :
    Kind s j ∧ (∀ xs, j ≠ .list xs) ∧ ∀ o, j ≠ .dict o := by
  cases h with
  | word h =>
    refine ⟨nearly_kind h (by simp [Typed]), ?_, ?_⟩
    · rintro xs rfl
      cases h with
      | array _ h => simp [Dict.get?_cons] at h
      | alternatives h => simp at h
    · rintro o rfl
      cases h with
      | object _ h => simp [Dict.get?_cons] at h
      | alternatives h => simp at h

/-- What is nearly valid is valid, if only the keywords that are read are there and no property is null. -/
theorem nearly_valid {v : PyVal} (hu : Understood v) : ∀ {j : PyVal}, Nearly v j → NoNull j → Valid refs v j := by
  induction hu with
  | @mk d h1 h2 h3 h4 h5 h6 h7 ih5 ih7 =>
    intro j hN hn
    rw [valid_iff]
    rintro ⟨k, v⟩ hkv
    have hg := Dict.get?_of_mem_nodup h1 hkv
    have hk := Dict.mem_keys_of_mem hkv
    have hN' := hN
    have typed : ∀ {s v}, Dict.get? d "type" = some v → Typed d s → TypeOk v j := by
      intro s v hg ht
      have := nearly_kind hN' ht
      rw [ht] at hg
      cases hg
      exact this
    simp only
    refine ⟨?_, ?_, ?_, ?_, ?_, ?_, ?_, ?_⟩
    · rintro rfl
      cases hN with
      | alternatives ht hx h =>
        rw [hg] at ht
        cases ht
        obtain ⟨s, rfl⟩ := h3 _ hg _ hx
        exact ⟨s, hx, (nearly_word h).1⟩
      | null ht => exact typed hg ht
      | boolean ht => exact typed hg ht
      | integer ht _ => exact typed hg ht
      | point ht _ => exact typed hg ht
      | number ht _ => exact typed hg ht
      | whole ht _ => exact typed hg ht
      | string ht => exact typed hg ht
      | array ht _ _ => exact typed hg ht
      | object ht _ _ _ => exact typed hg ht
    · rintro rfl; exact absurd hk (h2 _ (by simp))
    · rintro rfl
      obtain ⟨xs, rfl, hxs⟩ := h4 _ hg
      rintro o rfl x hx
      obtain ⟨n, ps, s, rfl, hps, hm, hd⟩ := hxs x hx
      refine ⟨n, rfl, ?_⟩
      cases hN with
      | object _ hps' _ g =>
        rw [hps] at hps'
        cases hps'
        cases hv : Dict.get? o n with
        | none =>
          rcases g _ hm hv with g | g
          · exact absurd ⟨_, hg, by simp only [PyVal.containsStr, Except.ok.injEq, List.any_eq_true]; exact ⟨_, hx, by simp [PyVal.pyEq]⟩⟩ g
          · exact absurd g hd
        | some w => exact Dict.mem_keys_of_mem (Dict.mem_of_get? hv)
      | alternatives ht hx h =>
        obtain ⟨s, rfl⟩ := h3 _ ht _ hx
        exact absurd rfl ((nearly_word h).2.2 o)
    · rintro rfl; exact absurd hk (h2 _ (by simp))
    · rintro rfl xs rfl x hx
      cases hN with
      | array _ hi h =>
        rw [hg] at hi
        cases hi
        exact ih5 _ hg (h x hx) (noNull_list hn hx)
      | alternatives ht hx h =>
        obtain ⟨s, rfl⟩ := h3 _ ht _ hx
        exact absurd rfl ((nearly_word h).2.1 xs)
    · rintro rfl; exact absurd hk (h2 _ (by simp))
    · rintro rfl
      obtain ⟨ps, rfl⟩ := h6 _ hg
      rw [Properties, propertiesAll_iff]
      rintro p hp o w rfl hw
      cases hN with
      | object _ hps' g _ =>
        rw [hg] at hps'
        cases hps'
        have := noNull_dict hn (Dict.mem_of_get? hw)
        exact ih7 _ hg _ hp (g _ hp _ hw (fun h => this.1 h.1)) this.2
      | alternatives ht hx h =>
        obtain ⟨s, rfl⟩ := h3 _ ht _ hx
        exact absurd rfl ((nearly_word h).2.2 o)
    · rintro rfl; exact absurd hk (h2 _ (by simp))

end Recap.JsonData
