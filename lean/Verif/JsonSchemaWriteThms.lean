import Verif.JsonSchemaEnds

/-!
# Properties of writing JSON Schemas

C68, and what does not hold of C69.
-/

set_option autoImplicit false

namespace Recap.Json

open Recap.Url Spec

variable {live : Registry}

/-! ## C68 -/

theorem struct_object {n : Nat} {b : Bool} {fs : List RType} {a : Attrs} {d : Dict}
    (hb : b = false ∨ ∀ s, a.alias ≠ .str s) (h : convertF live (n + 1) b (.struct fs a) = .ok d) :
    ObjectOf fs d ∧ ∃ props req, convertFields (convertF live n true) fs [] [] = .ok (props, req) ∧
      Dict.get? d "properties" = some (.dict props) ∧
      ∀ k ∈ refPlaces, k ≠ "properties" → Dict.get? d k = .none := by
  simp only [convertF] at h
  have hno : (if b = true then ownAlias (.struct fs a) else .none) = .none := by
    rcases hb with rfl | hb
    · rfl
    · cases b
      · rfl
      · simp only [ownAlias, RType.attrs, if_true]
  rw [hno] at h
  simp only at h
  obtain ⟨⟨props, req⟩, hf, h⟩ := ok_bind h
  obtain ⟨h1, h2, h3, _, _⟩ := convertFields_ok hf
  simp only [List.nil_append] at h1
  cases h
  have hupd : ∀ e : Dict, (∀ k ∈ Dict.keys e, k = "required") → (Dict.keys e).Nodup →
      Dict.update (describe a) ([("type", .str "object"), ("properties", .dict props)] ++ e) =
        describe a ++ ([("type", .str "object"), ("properties", .dict props)] ++ e) := by
    intro e he hne
    apply update_describe
    · intro k hk
      simp only [Dict.keys, List.map_append, List.map_cons, List.map_nil, List.mem_append, List.mem_cons,
        List.not_mem_nil, or_false] at hk
      rcases hk with (rfl | rfl) | hk
      · decide
      · decide
      · cases he k hk; decide
    · simp only [Dict.keys, List.map_append, List.map_cons, List.map_nil] at he hne ⊢
      simp only [List.cons_append, List.nil_append, List.nodup_cons, List.mem_cons, not_or]
      exact ⟨⟨by decide, fun hh => by simpa using he _ hh⟩, fun hh => by simpa using he _ hh, hne⟩
  have hprops : (Dict.keys props).Nodup ∧
      ∀ name, name ∈ Dict.keys props ↔ ∃ f ∈ fs, nameOf f = some (.str name) :=
    ⟨h2 (by simp [Dict.keys]), fun name => by rw [h3]; simp [Dict.keys]⟩
  simp only [RType.attrs]
  cases hreq : req with
  | nil =>
    rw [hreq] at h1
    have hu := hupd [] (by simp [Dict.keys]) (by simp [Dict.keys])
    simp only [List.isEmpty_nil, if_true]
    rw [hu]
    refine ⟨⟨?_, ⟨props, ?_, hprops⟩, ?_⟩, props, [], ?_, ?_, ?_⟩
    · rw [get?_describe _ _ (by decide) (by decide)]; rfl
    · rw [get?_describe _ _ (by decide) (by decide)]; rfl
    · rw [get?_describe _ _ (by decide) (by decide), ← h1]; rfl
    · rw [hf, hreq]
    · rw [get?_describe _ _ (by decide) (by decide)]; rfl
    · intro k hk hkp
      have h1 : k ≠ "type" := by rintro rfl; simp [refPlaces] at hk
      have h2 : k ≠ "default" := by rintro rfl; simp [refPlaces] at hk
      have h3 : k ≠ "description" := by rintro rfl; simp [refPlaces] at hk
      rw [get?_describe _ _ h2 h3]
      simp [Dict.get?_cons, h1.symm, hkp.symm]
  | cons x xs =>
    rw [hreq] at h1
    have hu := hupd [("required", .list (x :: xs))] (by simp [Dict.keys]) (by simp [Dict.keys])
    simp only [List.isEmpty_cons, Bool.false_eq_true, if_false]
    rw [hu]
    refine ⟨⟨?_, ⟨props, ?_, hprops⟩, ?_⟩, props, x :: xs, ?_, ?_, ?_⟩
    · rw [get?_describe _ _ (by decide) (by decide)]; rfl
    · rw [get?_describe _ _ (by decide) (by decide)]; rfl
    · rw [get?_describe _ _ (by decide) (by decide), ← h1]; rfl
    · rw [hf, hreq]
    · rw [get?_describe _ _ (by decide) (by decide)]; rfl
    · intro k hk hkp
      have h1 : k ≠ "type" := by rintro rfl; simp [refPlaces] at hk
      have h2 : k ≠ "default" := by rintro rfl; simp [refPlaces] at hk
      have h3 : k ≠ "description" := by rintro rfl; simp [refPlaces] at hk
      have h4 : k ≠ "required" := by rintro rfl; simp [refPlaces] at hk
      rw [get?_describe _ _ h2 h3]
      simp [Dict.get?_cons, h1.symm, hkp.symm, h4.symm]

/-- Object schemas below a schema come from structs that meet `Q`. -/
def ObjectsIn (Q : List RType → Prop) (d : Dict) : Prop :=
  ∀ o, Place d o → (Dict.get? o "properties").isSome = true → ∃ fs, Q fs ∧ ObjectOf fs o

theorem object_congr {fs : List RType} {d d' : Dict} (h : ObjectOf fs d)
    (e : ∀ k ∈ ["type", "properties", "required"], Dict.get? d' k = Dict.get? d k) : ObjectOf fs d' := by
  refine ⟨?_, ?_, ?_⟩
  · rw [e _ (by decide)]; exact h.type
  · rw [e _ (by decide)]; exact h.properties
  · rw [e _ (by decide)]; exact h.required

theorem objects_congr {Q : List RType → Prop} {d d' : Dict}
    (h : ∀ k ∈ "type" :: "required" :: refPlaces, Dict.get? d' k = Dict.get? d k) (hd : ObjectsIn Q d) :
    ObjectsIn Q d' := by
  intro o ho hp
  cases ho with
  | own =>
    obtain ⟨fs, hq, hof⟩ := hd d .own (by rw [← h _ (by decide)]; exact hp)
    refine ⟨fs, hq, object_congr hof ?_⟩
    intro k hk
    apply h
    simp at hk
    rcases hk with rfl | rfl | rfl <;> decide
  | items h' a => exact hd o (.items (by rw [← h _ (by decide)]; exact h') a) hp
  | values h' a => exact hd o (.values (by rw [← h _ (by decide)]; exact h') a) hp
  | property h' a b => exact hd o (.property (by rw [← h _ (by decide)]; exact h') a b) hp
  | member h' a b => exact hd o (.member (by rw [← h _ (by decide)]; exact h') a b) hp
  | definition h' a b => exact hd o (.definition (by rw [← h _ (by decide)]; exact h') a b) hp

theorem objects_describe {Q : List RType → Prop} {a : Attrs} {e : Dict} (hn : (Dict.keys e).Nodup)
    (h : ObjectsIn Q e) : ObjectsIn Q (Dict.update (describe a) e) := by
  refine objects_congr (d := e) ?_ h
  intro k hk
  rw [get?_update _ _ _ hn]
  have : Dict.get? (describe a) k = .none := by
    rw [Dict.get?_eq_none_iff]
    intro hk'
    rcases describe_keys a k hk' with rfl | rfl <;> simp [refPlaces] at hk
  simp [this]

/-- A schema with at most one of the places that hold schemas. -/
theorem objects_none {Q : List RType → Prop} {d : Dict} (h : ∀ k ∈ refPlaces, k ≠ "$ref" → Dict.get? d k = .none) :
    ObjectsIn Q d := by
  intro o ho hp
  cases ho with
  | own => rw [h _ (by decide) (by decide)] at hp; cases hp
  | items h' a => rw [h _ (by decide) (by decide)] at h'; cases h'
  | values h' a => rw [h _ (by decide) (by decide)] at h'; cases h'
  | property h' a b => rw [h _ (by decide) (by decide)] at h'; cases h'
  | member h' a b => rw [h _ (by decide) (by decide)] at h'; cases h'
  | definition h' a b => rw [h _ (by decide) (by decide)] at h'; cases h'

theorem objects_leaf {Q : List RType → Prop} {a : Attrs} {e : Dict} (hn : (Dict.keys e).Nodup)
    (hk : ∀ k ∈ Dict.keys e, k ∈ ["type", "enum", "format", "$ref"]) :
    ObjectsIn Q (Dict.update (describe a) e) := by
  refine objects_describe hn (objects_none ?_)
  intro k hk' hr
  rw [Dict.get?_eq_none_iff]
  intro hm
  have := hk k hm
  simp [refPlaces] at this hk'
  grind

theorem convertF_objects {Q : List RType → Prop} {n : Nat} {b : Bool} {t : RType} {d : Dict}
    (hQ : ∀ fs a, Spans live t (.struct fs a) → Q fs) (h : convertF live n b t = .ok d) :
    ObjectsIn Q d := by
  induction n generalizing b t d with
  | zero => cases h
  | succ n ih =>
    have hfull := h
    simp only [convertF] at h
    split at h
    · cases h
      refine objects_none ?_
      intro k hk hr
      simp [defsRef, Dict.get?_cons, hr.symm]
    · rename_i hown
      split at h
      · rename_i ts a
        have step : ∀ m ∈ ts, ∀ {b' d'}, convertF live n b' m = .ok d' → ObjectsIn Q d' :=
          fun m hm _ _ h' => ih (fun fs a hu => hQ fs a (.member hm hu)) h'
        split at h
        · split at h
          · rename_i m hf
            obtain ⟨d', hd', h⟩ := ok_bind h
            cases h
            have hm : m ∈ ts := (List.mem_filter.mp (by rw [hf]; simp : m ∈ ts.filter _)).1
            exact objects_describe (convertF_nodup hd') (step m hm hd')
          · cases h
        · obtain ⟨ds, hds, h⟩ := ok_bind h
          cases h
          refine objects_describe (by simp [Dict.keys]) ?_
          intro o ho hp
          cases ho with
          | member h' hs ho =>
            simp only [Dict.get?_cons, if_true, Option.some.injEq, PyVal.list.injEq] at h'
            subst h'
            obtain ⟨m, hm, d', hd', e⟩ := convertAll_ok hds _ hs
            cases e
            exact step m hm hd' o ho hp
          | own => simp [Dict.get?_cons] at hp
          | items h' _ => simp [Dict.get?_cons] at h'
          | values h' _ => simp [Dict.get?_cons] at h'
          | property h' _ _ => simp [Dict.get?_cons] at h'
          | definition h' _ _ => simp [Dict.get?_cons] at h'
      · rename_i fs a
        have hb : b = false ∨ ∀ s, a.alias ≠ .str s := by
          cases b
          · exact Or.inl rfl
          · refine Or.inr (fun s hs => ?_)
            simp [ownAlias, RType.attrs, hs] at hown
        obtain ⟨hof, props, req, hf, hp, hno⟩ := struct_object hb hfull
        obtain ⟨_, _, _, _, h5⟩ := convertFields_ok hf
        intro o ho hso
        cases ho with
        | own => exact ⟨fs, hQ fs a .refl, hof⟩
        | property h' hs ho =>
          rw [hp] at h'
          cases h'
          rcases h5 _ _ hs with h' | ⟨m, hm, d', hd', e⟩
          · cases h'
          · cases e
            exact ih (fun fs a hu => hQ fs a (.field hm hu)) hd' o ho hso
        | items h' _ => rw [hno _ (by decide) (by decide)] at h'; cases h'
        | values h' _ => rw [hno _ (by decide) (by decide)] at h'; cases h'
        | member h' _ _ => rw [hno _ (by decide) (by decide)] at h'; cases h'
        | definition h' _ _ => rw [hno _ (by decide) (by decide)] at h'; cases h'
      · rename_i t' l v a
        obtain ⟨d', hd', h⟩ := ok_bind h
        cases h
        have := ih (fun fs a hu => hQ fs a (.list hu)) hd'
        refine objects_describe (by simp [Dict.keys]) ?_
        intro o ho hp
        cases ho with
        | items h' ho =>
          simp [Dict.get?_cons] at h'
          subst h'
          exact this o ho hp
        | own => simp [Dict.get?_cons] at hp
        | member h' _ _ => simp [Dict.get?_cons] at h'
        | values h' _ => simp [Dict.get?_cons] at h'
        | property h' _ _ => simp [Dict.get?_cons] at h'
        | definition h' _ _ => simp [Dict.get?_cons] at h'
      · rename_i k t' a
        obtain ⟨d', hd', h⟩ := ok_bind h
        cases h
        have := ih (fun fs a hu => hQ fs a (.value hu)) hd'
        refine objects_describe (by simp [Dict.keys]) ?_
        intro o ho hp
        cases ho with
        | values h' ho =>
          simp [Dict.get?_cons] at h'
          subst h'
          exact this o ho hp
        | own => simp [Dict.get?_cons] at hp
        | member h' _ _ => simp [Dict.get?_cons] at h'
        | items h' _ => simp [Dict.get?_cons] at h'
        | property h' _ _ => simp [Dict.get?_cons] at h'
        | definition h' _ _ => simp [Dict.get?_cons] at h'
      all_goals try (cases h; exact objects_leaf (by simp [Dict.keys]) (by simp [Dict.keys]))
      rename_i r a
      obtain ⟨b', hb', h⟩ := ok_bind h
      split at h
      · obtain ⟨t', ht', h⟩ := ok_bind h
        exact ih (fun fs a hu => hQ fs a (.target ht' hu)) h
      · split at h
        · cases h; exact objects_leaf (by simp [Dict.keys, defsRef]) (by simp [Dict.keys, defsRef])
        · cases h

/-- C68.  Every object schema with properties, anywhere in a written schema, is that of a struct: its
properties have the names of the fields, and exactly those of the fields that are not optional are
listed as required. -/
theorem C68_everywhere {t : RType} {d o : Dict} (h : fromRecap live t = .ok d) (ho : Place d o)
    (hp : (Dict.get? o "properties").isSome = true) :
    ∃ fs a, Spans live t (.struct fs a) ∧ ObjectOf fs o := by
  obtain ⟨n, s, defs, hs, hd, rfl⟩ := fromRecap_ok h
  have hok := aliasDefs_ok t hd
  have h1 : ObjectsIn (fun fs => ∃ a, Spans live t (.struct fs a)) s :=
    convertF_objects (fun fs a hu => ⟨a, hu⟩) hs
  have h2 : ∀ m v, (m, .dict v) ∈ defs → ObjectsIn (fun fs => ∃ a, Spans live t (.struct fs a)) v := by
    intro m v hm
    obtain ⟨u, d, hu, e, hf, _⟩ := hok.sound m _ hm
    cases e
    exact convertF_objects (fun fs a hx => ⟨a, trans_spans hu hx⟩) hf
  suffices ∃ fs, (∃ a, Spans live t (.struct fs a)) ∧ ObjectOf fs o by
    obtain ⟨fs, ⟨a, h1⟩, h2⟩ := this
    exact ⟨fs, a, h1, h2⟩
  split at ho
  · exact h1 o ho hp
  · cases ho with
    | own =>
      rw [Dict.get?_set_ne _ _ (by decide)] at hp
      obtain ⟨fs, hq, hof⟩ := h1 s .own hp
      refine ⟨fs, hq, object_congr hof ?_⟩
      intro k hk
      rw [Dict.get?_set_ne]
      rintro rfl
      simp at hk
    | items h' a => rw [Dict.get?_set_ne _ _ (by decide)] at h'; exact h1 o (.items h' a) hp
    | values h' a => rw [Dict.get?_set_ne _ _ (by decide)] at h'; exact h1 o (.values h' a) hp
    | property h' a b => rw [Dict.get?_set_ne _ _ (by decide)] at h'; exact h1 o (.property h' a b) hp
    | member h' a b => rw [Dict.get?_set_ne _ _ (by decide)] at h'; exact h1 o (.member h' a b) hp
    | definition h' a b =>
      rw [Dict.get?_set_self] at h'
      cases h'
      exact h2 _ _ a o b hp

/-- C68.  A struct without alias is written as the object schema of its fields. -/
theorem C68_struct {fs : List RType} {a : Attrs} {d : Dict} (ha : ∀ s, a.alias ≠ .str s)
    (h : fromRecap live (.struct fs a) = .ok d) : ObjectOf fs d := by
  obtain ⟨n, s, defs, hs, _, rfl⟩ := fromRecap_ok h
  cases n with
  | zero => cases hs
  | succ n =>
    have := (struct_object (Or.inr ha) hs).1
    split
    · exact this
    · refine object_congr this ?_
      intro k hk
      rw [Dict.get?_set_ne]
      rintro rfl
      simp at hk

/-- C68.  A struct with an alias of its own is written as a reference to a definition that is the
object schema of its fields. -/
theorem C68_aliased {fs : List RType} {a : Attrs} {d : Dict} {s : String} (ha : a.alias = .str s)
    (hs : s ≠ "") (hb : ¬ Builtin (.str s))
    (hu : ∀ u, Inside u (.struct fs a) → u.attrs.alias = .str s → u = .struct fs a)
    (h : fromRecap live (.struct fs a) = .ok d) :
    Dict.get? d "$ref" = some (.str ("#/$defs/" ++ s)) ∧
      ∃ o, Dict.get? (defsOf d) s = some (.dict o) ∧ ObjectOf fs o := by
  obtain ⟨n, s', defs, hs', hd, rfl⟩ := fromRecap_ok h
  cases n with
  | zero => cases hs'
  | succ n =>
    rw [defsOf_written (convertF_no_defs hs')]
    have hok := aliasDefs_ok _ hd
    have hk := hok.complete _ .refl s ha hs hb
    obtain ⟨v, hv⟩ : ∃ v, Dict.get? defs s = some v := by
      cases hg : Dict.get? defs s with
      | none => exact absurd hk (Dict.get?_eq_none_iff.mp hg)
      | some v => exact ⟨v, rfl⟩
    obtain ⟨u, o, hi, rfl, hf, hsu, _⟩ := hok.sound s v (Dict.mem_of_get? hv)
    cases hu u hi hsu
    refine ⟨?_, o, hv, (struct_object (Or.inl rfl) hf).1⟩
    simp only [convertF, ownAlias, RType.attrs, ha, if_true, Except.ok.injEq] at hs'
    subst hs'
    split <;> simp [defsRef, Dict.get?_cons, Dict.get?_set_ne]

/-- A struct with a required and an optional field is written with one required name. -/
example : ∃ d, fromRecap [] (.struct [.string .none (.bool true) { extra := [("name", .str "id")] },
    .union [.null {}, .bool {}] { extra := [("default", .none), ("name", .str "ok")] }] {}) = .ok d ∧
    Dict.get? d "required" = some (.list [.str "id"]) := ⟨_, rfl, rfl⟩

/-! ## C69 -/

/-- A struct that defines an alias and refers to it from a named field. -/
def pairType (r : Option (List (String × RType))) : RType :=
  .struct [.struct [.bool { extra := [("name", .str "b")] }]
      { alias := .str "x.P", extra := [("name", .str "p")] },
    .proxy r { alias := .str "x.P", extra := [("name", .str "q")] }] {}

/-- The registry after reading it. -/
def pairRegistry : Registry :=
  newRegistry ++ [("x.P", .struct [.bool { extra := [("name", .str "b")] }] { extra := [("name", .str "p")] })]

example : fromDict (.dict [("type", .str "struct"), ("fields", .list [
      .dict [("type", .str "struct"), ("alias", .str "x.P"), ("name", .str "p"), ("fields", .list [
        .dict [("type", .str "bool"), ("name", .str "b")]])],
      .dict [("type", .str "x.P"), ("name", .str "q")]])]) newRegistry =
    .ok (pairType .none, pairRegistry) := rfl

theorem xP_not_builtin : ¬ Builtin (.str "x.P") := by
  rintro ⟨s, t, e, hm⟩
  cases e
  have : "x.P" ∉ builtinAliases.map (·.1) := by decide +kernel
  exact this (List.mem_map.mpr ⟨_, hm, rfl⟩)

/-- It meets the hypotheses of `C69_resolves_partial`. -/
example : ∃ d, fromRecap pairRegistry (pairType .none) = .ok d ∧ Refers (.dict d) "#/$defs/x.P" ∧
    Resolves (defsOf d) "#/$defs/x.P" := by
  refine ⟨_, rfl, .property rfl (List.mem_cons_self ..) (.own rfl), ?_⟩
  have hres : ∀ t, resolve pairRegistry .none { alias := .str "x.P", extra := [("name", .str "q")] } = .ok t →
      t = .struct [.bool { extra := [("name", .str "b")] }] { extra := [("name", .str "q")] } := by
    intro t h
    have h' : Except.ok (.struct [.bool { extra := [("name", .str "b")] }] { extra := [("name", .str "q")] }) =
      (Except.ok t : Except PyErr RType) := h
    cases h'
    rfl
  refine C69_resolves_partial (live := pairRegistry) (t := pairType .none) ?_ ?_ rfl
    (.property rfl (List.mem_cons_self ..) (.own rfl))
  · intro u hu hn s hs
    have hd : Defines (pairType .none) "x.P" :=
      ⟨_, .field (List.mem_cons_self ..) .refl, (by rintro ⟨_, _, e⟩; cases e), rfl, by decide, xP_not_builtin⟩
    cases hu with
    | refl => simp [pairType, RType.attrs] at hs
    | field hm hu =>
      simp only [List.mem_cons, List.not_mem_nil, or_false] at hm
      rcases hm with rfl | rfl
      · cases hu with
        | refl => simp [RType.attrs] at hs; subst hs; exact hd
        | field hm hu =>
          simp only [List.mem_cons, List.not_mem_nil, or_false] at hm
          subst hm
          cases hu
          simp [RType.attrs] at hs
      · cases hu with
        | refl => exact absurd ⟨_, _, rfl⟩ hn
        | target hr hu =>
          cases hres _ hr
          cases hu with
          | refl => simp [RType.attrs] at hs
          | field hm hu =>
            simp only [List.mem_cons, List.not_mem_nil, or_false] at hm
            subst hm
            cases hu
            simp [RType.attrs] at hs
  · intro r a hu
    right
    cases hu with
    | field hm hu =>
      simp only [List.mem_cons, List.not_mem_nil, or_false] at hm
      rcases hm with rfl | rfl
      · cases hu with
        | field hm hu =>
          simp only [List.mem_cons, List.not_mem_nil, or_false] at hm
          subst hm
          cases hu
      · cases hu with
        | refl => simp
        | target hr hu =>
          cases hres _ hr
          cases hu with
          | field hm hu =>
            simp only [List.mem_cons, List.not_mem_nil, or_false] at hm
            subst hm
            cases hu

/-- A type that meets the hypotheses of `C69_ends_partial`: a list of an alias, and a reference to a
built-in alias. -/
example : ∃ d, fromRecap newRegistry (.struct [
      .list (.enum (.list [.str "A"]) { alias := .str "x.P" }) .none (.bool true) { extra := [("name", .str "l")] },
      .proxy .none { alias := .str "int32", extra := [("name", .str "i")] }] {}) = .ok d ∧
    Refers (.dict d) "#/$defs/x.P" ∧ Ends (defsOf d) "#/$defs/x.P" := by
  refine ⟨_, rfl, .property rfl (List.mem_cons_self ..) (.items rfl (.own rfl)), ?_⟩
  refine C69_ends_partial (live := newRegistry) (t := .struct [
      .list (.enum (.list [.str "A"]) { alias := .str "x.P" }) .none (.bool true) { extra := [("name", .str "l")] },
      .proxy .none { alias := .str "int32", extra := [("name", .str "i")] }] {}) ?_ (by decide +kernel) ?_ rfl
    (.property rfl (List.mem_cons_self ..) (.items rfl (.own rfl)))
  · intro r a hu
    cases hu with
    | field hm hu =>
      simp only [List.mem_cons, List.not_mem_nil, or_false] at hm
      rcases hm with rfl | rfl
      · cases hu with
        | list hu => cases hu
      · cases hu with
        | refl =>
          refine ⟨⟨"int32", _, rfl, List.mem_of_find?_eq_some (p := fun kt => kt.1 == "int32") rfl⟩, by decide, ?_⟩
          intro s u hm
          have : ∀ kt ∈ builtinAliases, Registry.find? newRegistry kt.1 = some kt.2 := by decide +kernel
          exact this _ hm
  · intro u s hu hn hs
    cases hu with
    | refl => simp [RType.attrs] at hs
    | field hm hu =>
      simp only [List.mem_cons, List.not_mem_nil, or_false] at hm
      rcases hm with rfl | rfl
      · cases hu with
        | refl => simp [RType.attrs] at hs
        | list hu =>
          cases hu
          simp [RType.attrs] at hs
          subst hs
          exact ⟨by decide, xP_not_builtin⟩
      · cases hu with
        | refl => exact absurd ⟨_, _, rfl⟩ hn

/-- C69 does not hold of all types: when the values of a list are a reference to an alias that the
same type defines, the definition is overwritten by a reference to itself. -/
theorem C69_refuted : ∃ v t reg d r, fromDict v newRegistry = .ok (t, reg) ∧
    fromRecap reg t = .ok d ∧ Refers (.dict d) r ∧ ¬ Ends (defsOf d) r := by
  refine ⟨.dict [("type", .str "struct"), ("fields", .list [
      .dict [("type", .str "bool"), ("alias", .str "x.Y"), ("name", .str "a")],
      .dict [("type", .str "list"), ("values", .str "x.Y"), ("name", .str "b")]])], _, _, _,
    "#/$defs/x.Y", rfl, rfl, .property rfl (List.mem_cons_self ..) (.own rfl), ?_⟩
  suffices ∀ (defs : Dict) r, Dict.get? defs "x.Y" = some (.dict [("$ref", .str "#/$defs/x.Y")]) →
      Ends defs r → r ≠ "#/$defs/x.Y" from fun h => this _ _ rfl h rfl
  intro defs r hd h
  induction h with
  | @here a s h1 h2 =>
    intro e
    have : a = "x.Y" := by
      have := congrArg String.toList e
      simp at this
      exact String.toList_inj.mp (by simpa using this)
    subst this
    rw [hd] at h1
    cases h1
    simp [Dict.get?_cons] at h2
  | @next a s r h1 h2 h3 ih =>
    intro e
    have : a = "x.Y" := by
      have := congrArg String.toList e
      simp at this
      exact String.toList_inj.mp (by simpa using this)
    subst this
    rw [hd] at h1
    cases h1
    simp [Dict.get?_cons] at h2
    exact ih h2.symm

/-- C69 does not hold of all types: a field that refers to a type read earlier is written in place,
with a reference to an alias that is not defined in the schema. -/
theorem C69_dangling_refuted : ∃ v1 v2 t1 reg1 t2 reg2 d r,
    fromDict v1 newRegistry = .ok (t1, reg1) ∧ fromDict v2 reg1 = .ok (t2, reg2) ∧
    fromRecap reg2 t2 = .ok d ∧ Refers (.dict d) r ∧ ¬ Resolves (defsOf d) r := by
  refine ⟨.dict [("type", .str "struct"), ("alias", .str "x.P"), ("fields", .list [
      .dict [("type", .str "bool"), ("alias", .str "x.Q"), ("name", .str "q")]])],
    .dict [("type", .str "struct"), ("fields", .list [.dict [("type", .str "x.P"), ("name", .str "p")]])],
    _, _, _, _, _, "#/$defs/x.Q", rfl, rfl, rfl,
    .property rfl (List.mem_cons_self ..) (.property rfl (List.mem_cons_self ..) (.own rfl)), ?_⟩
  rintro ⟨a, s, e, h⟩
  have : a = "x.Q" := by
    have := congrArg String.toList e
    simp at this
    exact String.toList_inj.mp (by simpa using this.symm)
  subst this
  have h' : (Option.none : Option PyVal) = some (.dict s) := h
  cases h'

end Recap.Json
