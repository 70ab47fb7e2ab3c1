import Verif.JsonSchemaWrite
import Verif.TypesState

/-!
# The references in written JSON Schemas

C69.
-/

set_option autoImplicit false

namespace Recap.Json

open Recap.Url Spec

variable {live : Registry}

/-! ## Which references are written -/

/-- Every reference in the schema is to an alias that meets `P`. -/
def RefsIn (P : String → Prop) (v : PyVal) : Prop := ∀ r, Refers v r → ∃ s, r = "#/$defs/" ++ s ∧ P s

theorem refs_leaf {P : String → Prop} {a : Attrs} {e : Dict} (hn : (Dict.keys e).Nodup)
    (hk : ∀ k ∈ Dict.keys e, k ∈ ["type", "enum", "format"]) :
    RefsIn P (.dict (Dict.update (describe a) e)) := by
  have hb : BodyKeys e := by
    intro k h
    have := hk k h
    constructor <;> rintro rfl <;> simp at this
  rw [update_describe hb hn]
  have hne : ∀ k, k ∉ ["type", "enum", "format", "default", "description"] →
      Dict.get? (describe a ++ e) k = .none := by
    intro k h
    rw [get?_describe _ _ (by rintro rfl; simp at h) (by rintro rfl; simp at h),
      Dict.get?_eq_none_iff]
    intro hm
    have := hk k hm
    simp at this h
    grind
  intro r hr
  cases hr with
  | own h => rw [hne _ (by decide)] at h; cases h
  | items h _ => rw [hne _ (by decide)] at h; cases h
  | values h _ => rw [hne _ (by decide)] at h; cases h
  | property h _ _ => rw [hne _ (by decide)] at h; cases h
  | member h _ _ => rw [hne _ (by decide)] at h; cases h
  | definition h _ _ => rw [hne _ (by decide)] at h; cases h

theorem refs_defsRef {P : String → Prop} {s : String} (h : P s) : RefsIn P (.dict (defsRef s)) := by
  intro r hr
  cases hr with
  | own h' =>
    simp only [defsRef, Dict.get?_cons, if_true, Option.some.injEq, PyVal.str.injEq] at h'
    exact ⟨s, h'.symm, h⟩
  | items h _ => simp [defsRef, Dict.get?_cons] at h
  | values h _ => simp [defsRef, Dict.get?_cons] at h
  | property h _ _ => simp [defsRef, Dict.get?_cons] at h
  | member h _ _ => simp [defsRef, Dict.get?_cons] at h
  | definition h _ _ => simp [defsRef, Dict.get?_cons] at h

theorem get?_update (e : Dict) (d : Dict) (k : String) (hn : (Dict.keys e).Nodup) :
    Dict.get? (Dict.update d e) k = (Dict.get? e k).or (Dict.get? d k) := by
  induction e generalizing d with
  | nil => simp [Dict.update]
  | cons kv e ih =>
    obtain ⟨k', v⟩ := kv
    simp only [Dict.keys, List.map_cons, List.nodup_cons] at hn
    have := ih (d := Dict.set d k' v) hn.2
    simp only [Dict.update, List.foldl_cons] at this ⊢
    rw [this]
    by_cases h : k' = k
    · subst h
      rw [Dict.get?_eq_none_iff.mpr hn.1, Dict.get?_set_self, Dict.get?_cons_self]
      rfl
    · rw [Dict.get?_set_ne _ _ h, Dict.get?_cons_ne _ _ h]

theorem nodup_update (e d : Dict) (h : (Dict.keys d).Nodup) :
    (Dict.keys (Dict.update d e)).Nodup := by
  induction e generalizing d with
  | nil => exact h
  | cons kv e ih => exact ih _ (Dict.nodup_keys_set _ _ h)

theorem mem_update {e d : Dict} {k : String} {v : PyVal} (h : (k, v) ∈ Dict.update d e) :
    (k, v) ∈ d ∨ (k, v) ∈ e := by
  induction e generalizing d with
  | nil => exact Or.inl h
  | cons kv e ih =>
    rcases ih (d := Dict.set d kv.1 kv.2) h with h | h
    · rcases mem_set' h with h | h
      · exact Or.inl h
      · exact Or.inr (by simp [h])
    · exact Or.inr (by simp [h])

theorem convertF_nodup {n : Nat} {b : Bool} {t : RType} {d : Dict} (h : convertF live n b t = .ok d) :
    (Dict.keys d).Nodup := by
  induction n generalizing b t d with
  | zero => cases h
  | succ n ih =>
    simp only [convertF] at h
    split at h
    · cases h; simp [defsRef, Dict.keys]
    · split at h
      · split at h
        · split at h
          · obtain ⟨d', _, h⟩ := ok_bind h
            cases h; exact nodup_update _ _ (describe_nodup _)
          · cases h
        · obtain ⟨d', _, h⟩ := ok_bind h
          cases h; exact nodup_update _ _ (describe_nodup _)
      · obtain ⟨⟨d', _⟩, _, h⟩ := ok_bind h
        cases h; exact nodup_update _ _ (describe_nodup _)
      · obtain ⟨d', _, h⟩ := ok_bind h
        cases h; exact nodup_update _ _ (describe_nodup _)
      · obtain ⟨d', _, h⟩ := ok_bind h
        cases h; exact nodup_update _ _ (describe_nodup _)
      all_goals try (cases h; exact nodup_update _ _ (describe_nodup _))
      obtain ⟨b', _, h⟩ := ok_bind h
      split at h
      · obtain ⟨t', _, h⟩ := ok_bind h
        exact ih h
      · split at h
        · cases h; exact nodup_update _ _ (describe_nodup _)
        · cases h

/-- The keys below which references can occur. -/
def refPlaces : List String := ["$ref", "items", "additionalProperties", "properties", "oneOf", "$defs"]

theorem refs_congr {P : String → Prop} {d d' : Dict}
    (h : ∀ k ∈ refPlaces, Dict.get? d' k = Dict.get? d k) (hd : RefsIn P (.dict d)) :
    RefsIn P (.dict d') := by
  intro r hr
  apply hd
  cases hr with
  | own h' => exact .own (by rw [← h _ (by decide)]; exact h')
  | items h' a => exact .items (by rw [← h _ (by decide)]; exact h') a
  | values h' a => exact .values (by rw [← h _ (by decide)]; exact h') a
  | property h' a b => exact .property (by rw [← h _ (by decide)]; exact h') a b
  | member h' a b => exact .member (by rw [← h _ (by decide)]; exact h') a b
  | definition h' a b => exact .definition (by rw [← h _ (by decide)]; exact h') a b

theorem refs_describe {P : String → Prop} {a : Attrs} {e : Dict} (hn : (Dict.keys e).Nodup)
    (h : RefsIn P (.dict e)) : RefsIn P (.dict (Dict.update (describe a) e)) := by
  refine refs_congr (d := e) ?_ h
  intro k hk
  rw [get?_update _ _ _ hn]
  have : Dict.get? (describe a) k = .none := by
    rw [Dict.get?_eq_none_iff]
    intro hk'
    rcases describe_keys a k hk' with rfl | rfl <;> simp [refPlaces] at hk
  simp [this]

theorem convertAll_ok {f : RType → Except PyErr Dict} {ts : List RType} {ds : List PyVal}
    (h : convertAll f ts = .ok ds) : ∀ s ∈ ds, ∃ t ∈ ts, ∃ d, f t = .ok d ∧ s = .dict d := by
  induction ts generalizing ds with
  | nil => cases h; simp
  | cons t ts ih =>
    simp only [convertAll] at h
    obtain ⟨d, hd, h⟩ := ok_bind h
    obtain ⟨ds', hds, h⟩ := ok_bind h
    cases h
    intro s hs
    rcases List.mem_cons.mp hs with rfl | hs
    · exact ⟨t, by simp, d, hd, rfl⟩
    · obtain ⟨t', ht', h⟩ := ih hds s hs
      exact ⟨t', by simp [ht'], h⟩

theorem isBuiltin_ok {alias : PyVal} {b : Bool} (h : isBuiltin alias = .ok b) :
    b = true ↔ Builtin alias := by
  unfold isBuiltin at h
  split at h
  · rename_i s
    cases h
    rw [Recap.find?_isSome_iff]
    simp only [Recap.Spec.names, List.mem_map, Builtin]
    constructor
    · rintro ⟨⟨s', t⟩, hm, rfl⟩; exact ⟨_, t, rfl, hm⟩
    · rintro ⟨s', t, e, hm⟩; cases e; exact ⟨_, hm, rfl⟩
  · cases h
  · cases h
  · rename_i h1 _ _
    cases h
    simp only [Bool.false_eq_true, false_iff]
    rintro ⟨s, t, rfl, _⟩
    exact h1 _ rfl

theorem ownAlias_some {t : RType} {s : String} (h : ownAlias t = some s) :
    ¬ IsReference t ∧ t.attrs.alias = .str s := by
  cases t <;> simp only [ownAlias] at h <;> first
    | cases h
    | (split at h
       · cases h; rename_i he
         exact ⟨(by rintro ⟨_, _, e⟩; cases e), he⟩
       · cases h)

/-- The conversion refers only to aliases of types that it spans. -/
theorem convertF_refs {P : String → Prop} {n : Nat} {b : Bool} {t : RType} {d : Dict}
    (hP : ∀ u, Spans live t u → ¬ IsReference u → ∀ s, u.attrs.alias = .str s → P s)
    (hR : ∀ r a, Spans live t (.proxy r a) → Builtin a.alias ∨ a.extra ≠ [])
    (h : convertF live n b t = .ok d) : RefsIn P (.dict d) := by
  induction n generalizing b t d with
  | zero => cases h
  | succ n ih =>
    simp only [convertF] at h
    split at h
    · rename_i alias ha
      cases h
      split at ha
      · obtain ⟨h1, h2⟩ := ownAlias_some ha
        exact refs_defsRef (hP t .refl h1 _ h2)
      · cases ha
    · split at h
      · rename_i ts a _
        have step : ∀ m ∈ ts, ∀ {b' d'}, convertF live n b' m = .ok d' → RefsIn P (.dict d') :=
          fun m hm _ _ h' => ih (fun u hu => hP u (.member hm hu)) (fun r a hu => hR r a (.member hm hu)) h'
        split at h
        · split at h
          · rename_i m hf
            obtain ⟨d', hd', h⟩ := ok_bind h
            cases h
            have hm : m ∈ ts := (List.mem_filter.mp (by rw [hf]; simp : m ∈ ts.filter _)).1
            exact refs_describe (convertF_nodup hd') (step m hm hd')
          · cases h
        · obtain ⟨ds, hds, h⟩ := ok_bind h
          cases h
          refine refs_describe (by simp [Dict.keys]) ?_
          intro r hr
          cases hr with
          | member h' hs hr =>
            simp only [Dict.get?_cons, if_true, Option.some.injEq, PyVal.list.injEq] at h'
            subst h'
            obtain ⟨m, hm, d', hd', rfl⟩ := convertAll_ok hds _ hs
            exact step m hm hd' r hr
          | own h' => simp [Dict.get?_cons] at h'
          | items h' _ => simp [Dict.get?_cons] at h'
          | values h' _ => simp [Dict.get?_cons] at h'
          | property h' _ _ => simp [Dict.get?_cons] at h'
          | definition h' _ _ => simp [Dict.get?_cons] at h'
      · rename_i fs a _
        obtain ⟨⟨props, req⟩, hf, h⟩ := ok_bind h
        cases h
        have step : ∀ m ∈ fs, ∀ {b' d'}, convertF live n b' m = .ok d' → RefsIn P (.dict d') :=
          fun m hm _ _ h' => ih (fun u hu => hP u (.field hm hu)) (fun r a hu => hR r a (.field hm hu)) h'
        obtain ⟨_, _, _, _, h5⟩ := convertFields_ok hf
        have key : ∀ e : Dict, (∀ k ∈ Dict.keys e, k = "required") → (Dict.keys e).Nodup →
            RefsIn P (.dict (Dict.update (describe a)
              ([("type", .str "object"), ("properties", .dict props)] ++ e))) := by
          intro e he hne
          have hnone : ∀ k ∈ refPlaces, Dict.get? e k = .none := by
            intro k hk
            rw [Dict.get?_eq_none_iff]
            intro hk'
            cases he k hk'
            simp [refPlaces] at hk
          refine refs_describe ?_ ?_
          · simp only [Dict.keys, List.map_append, List.map_cons, List.map_nil] at he hne ⊢
            simp only [List.cons_append, List.nil_append, List.nodup_cons, List.mem_cons, not_or]
            refine ⟨⟨by decide, fun hh => by simpa using he _ hh⟩, fun hh => by simpa using he _ hh, hne⟩
          · have hp : Dict.get? ([("type", PyVal.str "object"), ("properties", .dict props)] ++ e) "properties" =
                some (.dict props) := by simp [Dict.get?_cons]
            have hno : ∀ k ∈ refPlaces, k ≠ "properties" →
                Dict.get? ([("type", PyVal.str "object"), ("properties", .dict props)] ++ e) k = .none := by
              intro k hk hkp
              have : k ≠ "type" := by rintro rfl; simp [refPlaces] at hk
              simp [Dict.get?_cons, Ne.symm this, Ne.symm hkp, hnone k hk]
            intro r hr
            cases hr with
            | property h' hs hr =>
              rw [hp] at h'
              cases h'
              rcases h5 _ _ hs with h' | ⟨m, hm, d', hd', rfl⟩
              · cases h'
              · exact step m hm hd' r hr
            | own h' => rw [hno _ (by decide) (by decide)] at h'; cases h'
            | items h' _ => rw [hno _ (by decide) (by decide)] at h'; cases h'
            | values h' _ => rw [hno _ (by decide) (by decide)] at h'; cases h'
            | member h' _ _ => rw [hno _ (by decide) (by decide)] at h'; cases h'
            | definition h' _ _ => rw [hno _ (by decide) (by decide)] at h'; cases h'
        dsimp only
        split
        · exact key [] (by simp [Dict.keys]) (by simp [Dict.keys])
        · exact key [_] (by simp [Dict.keys]) (by simp [Dict.keys])
      · rename_i t' l v a _
        obtain ⟨d', hd', h⟩ := ok_bind h
        cases h
        have := ih (fun u hu => hP u (.list hu)) (fun r a hu => hR r a (.list hu)) hd'
        refine refs_describe (by simp [Dict.keys]) ?_
        intro r hr
        cases hr with
        | items h' hr =>
          simp [Dict.get?_cons] at h'
          subst h'
          exact this r hr
        | own h' => simp [Dict.get?_cons] at h'
        | member h' _ _ => simp [Dict.get?_cons] at h'
        | values h' _ => simp [Dict.get?_cons] at h'
        | property h' _ _ => simp [Dict.get?_cons] at h'
        | definition h' _ _ => simp [Dict.get?_cons] at h'
      · rename_i k t' a _
        obtain ⟨d', hd', h⟩ := ok_bind h
        cases h
        have := ih (fun u hu => hP u (.value hu)) (fun r a hu => hR r a (.value hu)) hd'
        refine refs_describe (by simp [Dict.keys]) ?_
        intro r hr
        cases hr with
        | values h' hr =>
          simp [Dict.get?_cons] at h'
          subst h'
          exact this r hr
        | own h' => simp [Dict.get?_cons] at h'
        | member h' _ _ => simp [Dict.get?_cons] at h'
        | items h' _ => simp [Dict.get?_cons] at h'
        | property h' _ _ => simp [Dict.get?_cons] at h'
        | definition h' _ _ => simp [Dict.get?_cons] at h'
      all_goals try (cases h; exact refs_leaf (by simp [Dict.keys]) (by simp [Dict.keys]))
      rename_i r a _
      obtain ⟨b', hb', h⟩ := ok_bind h
      split at h
      · obtain ⟨t', ht', h⟩ := ok_bind h
        exact ih (fun u hu => hP u (.target ht' hu)) (fun r a hu => hR r a (.target ht' hu)) h
      · rename_i hc
        simp only [Bool.or_eq_true, Bool.not_eq_true', not_or, Bool.not_eq_false] at hc
        rcases hR r a .refl with hr | hr
        · exact absurd ((isBuiltin_ok hb').mpr hr) (by simpa using hc.1)
        · exact absurd (List.isEmpty_iff.mp (by simpa using hc.2)) hr

/-! ## Which definitions are written -/

theorem ownDefs_ok {f : Bool → RType → Except PyErr Dict} {t : RType} {defs : Dict}
    (h : ownDefs f t = .ok defs) :
    (defs = [] ∧ (t.attrs.alias.truthy = false ∨ Builtin t.attrs.alias)) ∨
    ∃ s d, t.attrs.alias = .str s ∧ s ≠ "" ∧ ¬ Builtin (.str s) ∧ f false t = .ok d ∧
      defs = [(s, .dict d)] := by
  unfold ownDefs at h
  cases htr : t.attrs.alias.truthy with
  | false =>
    obtain ⟨b, hb, h⟩ := ok_bind h
    simp only [htr, Bool.false_and, Bool.false_eq_true, if_false] at h
    cases h
    exact Or.inl ⟨rfl, Or.inl rfl⟩
  | true =>
    obtain ⟨b, hb, h⟩ := ok_bind h
    simp only [htr, Bool.true_and] at h
    split at h
    · rename_i hnb
      split at h
      · rename_i s hs
        obtain ⟨d, hd, h⟩ := ok_bind h
        cases h
        refine Or.inr ⟨s, d, hs, ?_, ?_, hd, rfl⟩
        · rintro rfl
          rw [hs] at htr
          exact absurd htr (by decide)
        · rw [← hs]
          exact fun hB => by simp [(isBuiltin_ok hb).mpr hB] at hnb
      · cases h
    · rename_i hnb
      cases h
      exact Or.inl ⟨rfl, Or.inr ((isBuiltin_ok hb).mp (by simpa using hnb))⟩

/-- What `aliasDefs` and `aliasDefsAll` make, for a property `In u` of the types considered. -/
structure DefsOK (f : Bool → RType → Except PyErr Dict) (In : RType → Prop) (defs : Dict) : Prop where
  nodup : (Dict.keys defs).Nodup
  sound : ∀ n v, (n, v) ∈ defs → ∃ u d, In u ∧ v = .dict d ∧ f false u = .ok d ∧
    u.attrs.alias = .str n ∧ n ≠ "" ∧ ¬ Builtin (.str n)
  complete : ∀ u, In u → ∀ s, u.attrs.alias = .str s → s ≠ "" → ¬ Builtin (.str s) →
    s ∈ Dict.keys defs

theorem DefsOK.mono {f : Bool → RType → Except PyErr Dict} {In In' : RType → Prop} {defs : Dict}
    (h : DefsOK f In defs) (e : ∀ u, In u ↔ In' u) : DefsOK f In' defs :=
  ⟨h.nodup, fun n v hm => by obtain ⟨u, d, hu, hh⟩ := h.sound n v hm; exact ⟨u, d, (e u).mp hu, hh⟩,
    fun u hu => h.complete u ((e u).mpr hu)⟩

theorem mem_keys_update {d e : Dict} {k : String} :
    k ∈ Dict.keys (Dict.update d e) ↔ k ∈ Dict.keys d ∨ k ∈ Dict.keys e := by
  induction e generalizing d with
  | nil => simp [Dict.update, Dict.keys]
  | cons kv e ih =>
    rw [Dict.update_cons, ih, mem_keys_set]
    simp only [Dict.keys, List.map_cons, List.mem_cons]
    grind

theorem DefsOK.update {f : Bool → RType → Except PyErr Dict} {In In' : RType → Prop} {d e : Dict}
    (h : DefsOK f In d) (h' : DefsOK f In' e) : DefsOK f (fun u => In u ∨ In' u) (Dict.update d e) := by
  refine ⟨nodup_update _ _ h.nodup, ?_, ?_⟩
  · intro n v hm
    rcases mem_update hm with hm | hm
    · obtain ⟨u, d, hu, hh⟩ := h.sound n v hm; exact ⟨u, d, Or.inl hu, hh⟩
    · obtain ⟨u, d, hu, hh⟩ := h'.sound n v hm; exact ⟨u, d, Or.inr hu, hh⟩
  · intro u hu s h1 h2 h3
    rw [mem_keys_update]
    rcases hu with hu | hu
    · exact Or.inl (h.complete u hu s h1 h2 h3)
    · exact Or.inr (h'.complete u hu s h1 h2 h3)

theorem ownDefs_defsOK {f : Bool → RType → Except PyErr Dict} {t : RType} {defs : Dict}
    (h : ownDefs f t = .ok defs) : DefsOK f (fun u => u = t) defs := by
  rcases ownDefs_ok h with ⟨rfl, h'⟩ | ⟨s, d, h1, h2, h3, h4, rfl⟩
  · refine ⟨by simp [Dict.keys], by simp, ?_⟩
    rintro u rfl s h1 h2 h3
    rcases h' with h' | h'
    · rw [h1] at h'
      exact absurd h' (by simp [PyVal.truthy, h2])
    · rw [h1] at h'; exact absurd h' h3
  · refine ⟨by simp [Dict.keys], ?_, ?_⟩
    · intro n v hm
      simp only [List.mem_singleton, Prod.mk.injEq] at hm
      obtain ⟨rfl, rfl⟩ := hm
      exact ⟨t, d, rfl, rfl, h4, h1, h2, h3⟩
    · rintro u rfl s' h1' _ _
      rw [h1] at h1'; cases h1'
      simp [Dict.keys]

theorem inside_leaf {t : RType} (h : ∀ u, Inside u t → u = t) (u : RType) : u = t ↔ Inside u t :=
  ⟨fun e => e ▸ .refl, h u⟩

mutual
theorem aliasDefs_ok {f : Bool → RType → Except PyErr Dict} (t : RType) {defs : Dict}
    (h : aliasDefs f t = .ok defs) : DefsOK f (fun u => Inside u t) defs := by
  cases t with
  | struct fs a =>
    simp only [aliasDefs] at h
    obtain ⟨own, ho, h⟩ := ok_bind h
    refine (aliasDefsAll_ok fs h (ownDefs_defsOK ho)).mono ?_
    intro u
    constructor
    · rintro (rfl | ⟨t, ht, hu⟩)
      · exact .refl
      · exact .field ht hu
    · intro hu
      cases hu with
      | refl => exact Or.inl rfl
      | field ht hu => exact Or.inr ⟨_, ht, hu⟩
  | list t l v a =>
    simp only [aliasDefs] at h
    obtain ⟨own, ho, h⟩ := ok_bind h
    obtain ⟨ds, hd, h⟩ := ok_bind h
    cases h
    refine ((ownDefs_defsOK ho).update (aliasDefs_ok t hd)).mono ?_
    intro u
    constructor
    · rintro (rfl | hu)
      · exact .refl
      · exact .list hu
    · intro hu
      cases hu with
      | refl => exact Or.inl rfl
      | list hu => exact Or.inr hu
  | union ts a =>
    simp only [aliasDefs] at h
    obtain ⟨own, ho, h⟩ := ok_bind h
    refine (aliasDefsAll_ok ts h (ownDefs_defsOK ho)).mono ?_
    intro u
    constructor
    · rintro (rfl | ⟨t, ht, hu⟩)
      · exact .refl
      · exact .member ht hu
    · intro hu
      cases hu with
      | refl => exact Or.inl rfl
      | member ht hu => exact Or.inr ⟨_, ht, hu⟩
  | map k t a =>
    simp only [aliasDefs] at h
    obtain ⟨own, ho, h⟩ := ok_bind h
    obtain ⟨ds, hd, h⟩ := ok_bind h
    cases h
    refine ((ownDefs_defsOK ho).update (aliasDefs_ok t hd)).mono ?_
    intro u
    constructor
    · rintro (rfl | hu)
      · exact .refl
      · exact .value hu
    · intro hu
      cases hu with
      | refl => exact Or.inl rfl
      | value hu => exact Or.inr hu
  | _ =>
    simp only [aliasDefs] at h
    exact (ownDefs_defsOK h).mono (inside_leaf (fun u hu => by cases hu; rfl))
theorem aliasDefsAll_ok {f : Bool → RType → Except PyErr Dict} (ts : List RType) {acc defs : Dict}
    {In : RType → Prop} (h : aliasDefsAll f ts acc = .ok defs) (ha : DefsOK f In acc) :
    DefsOK f (fun u => In u ∨ ∃ t ∈ ts, Inside u t) defs := by
  cases ts with
  | nil =>
    simp only [aliasDefsAll] at h
    cases h
    exact ha.mono (by simp)
  | cons t ts =>
    simp only [aliasDefsAll] at h
    obtain ⟨ds, hd, h⟩ := ok_bind h
    refine (aliasDefsAll_ok ts h (ha.update (aliasDefs_ok t hd))).mono ?_
    intro u
    simp only [List.mem_cons]
    grind
end

/-! ## The whole document -/

theorem fromRecap_ok {t : RType} {d : Dict} (h : fromRecap live t = .ok d) :
    ∃ n s defs, convertF live n true t = .ok s ∧ aliasDefs (convertF live n) t = .ok defs ∧
      d = if defs.isEmpty then s else Dict.set s "$defs" (.dict defs) := by
  unfold fromRecap at h
  obtain ⟨s, hs, h⟩ := ok_bind h
  obtain ⟨defs, hd, h⟩ := ok_bind h
  cases h
  exact ⟨_, s, defs, hs, hd, rfl⟩

theorem convertF_no_defs {n : Nat} {b : Bool} {t : RType} {d : Dict} (h : convertF live n b t = .ok d) :
    Dict.get? d "$defs" = .none := by
  induction n generalizing b t d with
  | zero => cases h
  | succ n ih =>
    have hdesc : ∀ a : Attrs, Dict.get? (describe a) "$defs" = .none := by
      intro a
      rw [Dict.get?_eq_none_iff]
      intro hk
      rcases describe_keys a _ hk with h | h <;> simp at h
    have key : ∀ (a : Attrs) (e : Dict), (Dict.keys e).Nodup → Dict.get? e "$defs" = .none →
        Dict.get? (Dict.update (describe a) e) "$defs" = .none := by
      intro a e he hg
      rw [get?_update _ _ _ he, hg, hdesc]; rfl
    simp only [convertF] at h
    split at h
    · cases h; simp [defsRef, Dict.get?_cons]
    · split at h
      · split at h
        · split at h
          · obtain ⟨d', hd', h⟩ := ok_bind h
            cases h; exact key _ _ (convertF_nodup hd') (ih hd')
          · cases h
        · obtain ⟨d', _, h⟩ := ok_bind h
          cases h; exact key _ _ (by simp [Dict.keys]) (by simp [Dict.get?_cons])
      · obtain ⟨⟨d', _⟩, _, h⟩ := ok_bind h
        cases h
        dsimp only
        split <;> exact key _ _ (by simp [Dict.keys]) (by simp [Dict.get?_cons])
      · obtain ⟨d', _, h⟩ := ok_bind h
        cases h; exact key _ _ (by simp [Dict.keys]) (by simp [Dict.get?_cons])
      · obtain ⟨d', _, h⟩ := ok_bind h
        cases h; exact key _ _ (by simp [Dict.keys]) (by simp [Dict.get?_cons])
      all_goals try (cases h; exact key _ _ (by simp [Dict.keys]) (by simp [Dict.get?_cons]))
      obtain ⟨b', _, h⟩ := ok_bind h
      split at h
      · obtain ⟨t', _, h⟩ := ok_bind h
        exact ih h
      · split at h
        · cases h; exact key _ _ (by simp [Dict.keys, defsRef]) (by simp [Dict.get?_cons, defsRef])
        · cases h

theorem defsOf_written {s defs : Dict} (h : Dict.get? s "$defs" = .none) :
    defsOf (if defs.isEmpty then s else Dict.set s "$defs" (.dict defs)) = defs := by
  cases defs with
  | nil => simp [defsOf, h]
  | cons kv defs => simp [defsOf, Dict.get?_set_self]

theorem refs_written {P : String → Prop} {s defs : Dict} (hs : RefsIn P (.dict s))
    (hd : ∀ n v, (n, v) ∈ defs → RefsIn P v) :
    RefsIn P (.dict (if defs.isEmpty then s else Dict.set s "$defs" (.dict defs))) := by
  split
  · exact hs
  · intro r hr
    cases hr with
    | own h' => rw [Dict.get?_set_ne _ _ (by decide)] at h'; exact hs r (.own h')
    | items h' a => rw [Dict.get?_set_ne _ _ (by decide)] at h'; exact hs r (.items h' a)
    | values h' a => rw [Dict.get?_set_ne _ _ (by decide)] at h'; exact hs r (.values h' a)
    | property h' a b => rw [Dict.get?_set_ne _ _ (by decide)] at h'; exact hs r (.property h' a b)
    | member h' a b => rw [Dict.get?_set_ne _ _ (by decide)] at h'; exact hs r (.member h' a b)
    | definition h' a b =>
      rw [Dict.get?_set_self] at h'
      cases h'
      exact hd _ _ a r b

theorem trans_spans {t u x : RType} (h : Inside u t) (h' : Spans live u x) : Spans live t x := by
  induction h with
  | refl => exact h'
  | list _ ih => exact .list ih
  | value _ ih => exact .value ih
  | field hm _ ih => exact .field hm ih
  | member hm _ ih => exact .member hm ih

/-- C69.  Every reference in a written schema names one of its definitions, if every alias that
occurs in the type, or in what its references resolve to, is defined in the type, and references
to aliases that are not built in have attributes of their own (for example a name). -/
theorem C69_resolves_partial {t : RType} {d : Dict}
    (ha : ∀ u, Spans live t u → ¬ IsReference u → ∀ s, u.attrs.alias = .str s → Defines t s)
    (hr : ∀ r a, Spans live t (.proxy r a) → Builtin a.alias ∨ a.extra ≠ [])
    (h : fromRecap live t = .ok d) {r : String} (href : Refers (.dict d) r) :
    Resolves (defsOf d) r := by
  obtain ⟨n, s, defs, hs, hd, rfl⟩ := fromRecap_ok h
  have hok := aliasDefs_ok t hd
  rw [defsOf_written (convertF_no_defs hs)]
  have hrefs := refs_written (convertF_refs ha hr hs) (P := Defines t) (defs := defs) (by
    intro m v hm
    obtain ⟨u, d, hu, rfl, hf, _⟩ := hok.sound m v hm
    exact convertF_refs (fun x hx => ha x (trans_spans hu hx)) (fun r a hx => hr r a (trans_spans hu hx)) hf)
  obtain ⟨a, rfl, u, hu, _, h1, h2, h3⟩ := hrefs r href
  have hk := hok.complete u hu a h1 h2 h3
  obtain ⟨v, hv⟩ : ∃ v, Dict.get? defs a = some v := by
    cases hg : Dict.get? defs a with
    | none => exact absurd hk (Dict.get?_eq_none_iff.mp hg)
    | some v => exact ⟨v, rfl⟩
  obtain ⟨_, d', _, rfl, _⟩ := hok.sound a v (Dict.mem_of_get? hv)
  exact ⟨a, d', rfl, hv⟩

end Recap.Json
