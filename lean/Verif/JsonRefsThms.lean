import Verif.JsonRefsLemmas
import Verif.SettingsThms

/-!
# References in JSON Schemas that are read (C130, C144)
-/

set_option autoImplicit false

namespace Recap.JsonData

open Json
open Url (asciiEnv)
open Json.Spec (Without Inside IsReference Builtin)

variable {refs : String → PyVal → Prop} {env : Url.Env}

theorem toRecap_parse {v : PyVal} {ids ids' : Ids} {t : RType} (h : toRecap env v ids = .ok (t, ids')) :
    Json.parse env v ids = .ok (t, ids') := by
  unfold toRecap at h
  obtain ⟨⟨u, i⟩, h1, h⟩ := ok_bind h
  simp only at h
  split at h
  · cases h; exact h1
  · cases h

theorem mem_of_find {reg : Registry} {s : String} {t : RType} (h : Registry.find? reg s = some t) : (s, t) ∈ reg := by
  induction reg with
  | nil => cases h
  | cons kv reg ih =>
    obtain ⟨k, u⟩ := kv
    unfold Registry.find? at h
    split at h
    · rename_i hk; cases h; cases hk; simp
    · exact List.mem_cons_of_mem _ (ih h)

/-- A JSON value with moderate numbers that is valid against a schema, whose references are to schemas in the document, is
a value of the type that a new converter reads, where references stand for the types in it that have their alias.
Missing: `$dynamicRef`, and references to schemas that have to be retrieved. -/
theorem C130_references_partial {v : PyVal} {t : RType} {ids' : Ids} (h : toRecap env v [] = .ok (t, ids'))
    (hw : Without ["$dynamicRef"] v) (hl : Located refs v) {j : PyVal} (hj : Valid refs v j) (hm : Moderate j) :
    CarriesIn t t j := by
  have hp := toRecap_parse h
  rcases parse_ok_dict hp with ⟨s, rfl⟩ | ⟨d, rfl⟩
  · simp [Valid] at hj
  · exact part_carries hp hw hl _ .refl hp (fun _ h => h) (Nat.le_refl _) hj hm

/-- **C144**, partial: every reference in the type that a new converter reads comes from a `$ref` or `$dynamicRef` in the
document.  The schema in the document with that identifier was read as a type that is not a reference, and the alias of
the reference is that of this type, which is inside the result.  Missing: that the reference resolves to it, which is
false. -/
theorem C144_named_partial {v : PyVal} {t : RType} {ids' : Ids} (h : toRecap env v [] = .ok (t, ids'))
    {r : Option (List (String × RType))} {a : Attrs} (hi : Inside (.proxy r a) t) :
    ∃ d urn d' id u, Part (.dict d) v ∧
      (Dict.get? d "$ref" = some (.str urn) ∨ Dict.get? d "$dynamicRef" = some (.str urn)) ∧
      Part (.dict d') v ∧ Dict.get? d' "$id" = some (.str id) ∧ SameId id urn ∧
      Inside u t ∧ ¬IsReference u ∧ u.attrs.alias = a.alias ∧ (∃ s, a.alias = .str s) ∧
      ∃ td i i', Json.parse env (.dict d') i = .ok (td, i') ∧ ∀ j, CarriesIn t td j → CarriesIn t u j := by
  have hp := toRecap_parse h
  obtain ⟨d, urn, alias, ho⟩ := parse_proxies _ (Nat.le_refl _) hp hi
  obtain ⟨d', s, al, td, m, m', w, hw⟩ := ((parse_ids _ (Nat.le_refl _) hp).2 _ ho.known).resolve_left (by simp)
  have := hw.made.symm.trans ho.made
  cases this
  exact ⟨d, urn, d', s, w, ho.part, ho.ref, hw.part, hw.ident, sameId_of hw.same, hw.inside, hw.notRef,
    hw.named.trans ho.named.symm, ⟨_, ho.named⟩, td, m, m', hw.read, hw.kin.carries t⟩

/-- **C144**, refuted for every reference: the converter never registers what it reads, so that a reference whose alias is
not built in cannot be resolved. -/
theorem C144_dangling_refuted {v : PyVal} {t : RType} {ids' : Ids} (h : toRecap env v [] = .ok (t, ids'))
    {r : Option (List (String × RType))} {a : Attrs} (hi : Inside (.proxy r a) t) (hb : ¬Builtin a.alias) :
    resolve newRegistry r a = .error .typeError := by
  obtain ⟨d, urn, alias, ho⟩ := parse_proxies _ (Nat.le_refl _) (toRecap_parse h) hi
  have hn : builtinAliases.find? (String.ofList alias) = .none := by
    cases hf : builtinAliases.find? (String.ofList alias) with
    | none => rfl
    | some u => exact absurd ⟨_, u, ho.named, mem_of_find hf⟩ hb
  have : newRegistry = builtinAliases := rfl
  unfold resolve
  rw [ho.live, ho.named, this]
  simp only [Option.getD_none, Registry.fromAlias, hn]
  rfl

/-! ## A linked list -/

/-- A list of integers: every element refers to the schema for the rest. -/
def linkedDict : Dict :=
  [("$id", .str "http://recap.build/linkedlist.schema.json"), ("type", .str "object"),
   ("properties", .dict
      [("value", .dict [("type", .str "integer")]),
       ("next", .dict [("$ref", .str "http://recap.build/linkedlist.schema.json")])]),
   ("required", .list [.str "value"])]

/-- What is read. -/
def linkedType : RType :=
  .struct
    [.int (.int 32) (.bool true) { extra := [("name", .str "value")] },
     .union [.null {}, .proxy .none { alias := .str "build.recap.linkedlist.schema.json" }]
       { extra := [("default", .none), ("name", .str "next")] }]
    { alias := .str "build.recap.linkedlist.schema.json" }

theorem linked_read : toRecap asciiEnv (.dict linkedDict) [] =
    .ok (linkedType, ["http://recap.build/linkedlist.schema.json".toList]) := by decide +kernel

/-- The objects that are valid. -/
inductive Chain : PyVal → Prop
  | node {o x} : Dict.get? o "value" = some x → Kind "integer" x → (∀ y, Dict.get? o "next" = some y → Chain y) →
      Chain (.dict o)

/-- Two nodes. -/
def twoNodes : PyVal := .dict [("value", .int 1), ("next", .dict [("value", .int 2)])]

theorem linked_valid (j : PyVal) : Valid (fun _ => Chain) (.dict linkedDict) j ↔ Chain j := by
  constructor
  · intro h
    have ht : Dict.get? linkedDict "type" = some (.str "object") := rfl
    have hp : Dict.get? linkedDict "properties" = some (.dict
        [("value", .dict [("type", .str "integer")]),
         ("next", .dict [("$ref", .str "http://recap.build/linkedlist.schema.json")])]) := rfl
    have hr : Dict.get? linkedDict "required" = some (.list [.str "value"]) := rfl
    obtain ⟨o, rfl⟩ := kind_object ((valid_get h ht).type rfl)
    have hps := (valid_get h hp).properties rfl
    rw [Properties, propertiesAll_iff] at hps
    obtain ⟨n, hn, hk⟩ := (valid_get h hr).required rfl o rfl (.str "value") (by simp)
    cases hn
    cases hv : Dict.get? o "value" with
    | none => exact absurd hk (Dict.get?_eq_none_iff.mp hv)
    | some x =>
      have h1 := hps ("value", .dict [("type", .str "integer")]) (by simp) o x rfl hv
      refine .node hv ((valid_get h1 (k := "type") rfl).type rfl) fun y hy => ?_
      have h2 := hps ("next", .dict [("$ref", .str "http://recap.build/linkedlist.schema.json")]) (by simp) o y rfl hy
      obtain ⟨_, -, h⟩ := (valid_get h2 (k := "$ref") rfl).ref rfl
      exact h
  · rintro ⟨hv, hk, hn⟩
    rename_i o x
    have hm : "value" ∈ Dict.keys o := by
      rw [← Dict.has_iff, Dict.has, hv]; rfl
    simp [linkedDict, Valid, Keywords, Properties, PropertiesAll, TypeOk, RequiredOk, hm, Kind.object]
    refine ⟨fun o' v e h => ?_, fun o' v e h => ?_⟩
    · subst e; rw [hv] at h; cases h; exact hk
    · subst e; exact hn v h

/-- The references of the linked list are to the linked list. -/
theorem linked_located : Located (fun _ => Chain) (.dict linkedDict) := by
  intro d id urn hp hid hs j
  have : d = linkedDict := by
    cases hp with
    | refl => rfl
    | items h _ => exact absurd h (by simp [linkedDict, Dict.get?_cons])
    | property h1 h2 h3 =>
      simp [linkedDict, Dict.get?_cons] at h1
      subst h1
      simp at h2
      rcases h2 with ⟨-, rfl⟩ | ⟨-, rfl⟩
      all_goals
        cases h3 with
        | refl => simp [Dict.get?_cons] at hid
        | items h _ => simp [Dict.get?_cons] at h
        | property h _ _ => simp [Dict.get?_cons] at h
        | alternative h _ _ => simp [Dict.get?_cons] at h
    | alternative h _ _ => exact absurd h (by simp [linkedDict, Dict.get?_cons])
  rw [this, linked_valid]

theorem twoNodes_chain : Chain twoNodes := by
  refine .node rfl .integer fun y hy => ?_
  cases hy
  exact .node rfl .integer fun y hy => by simp [Dict.get?_cons] at hy

theorem twoNodes_moderate : Moderate twoNodes := by simp [twoNodes, Moderate, ModeratePairs, Avro.Spec.IntValue]

/-- The hypotheses of `C130_references_partial` are met by the linked list with two nodes. -/
example : CarriesIn linkedType linkedType twoNodes :=
  C130_references_partial linked_read (by simp [linkedDict, Without, Json.Spec.WithoutPairs, Json.Spec.WithoutAll]) linked_located
    ((linked_valid _).mpr twoNodes_chain) twoNodes_moderate

/-- A value of the linked list has an integer: what `CarriesIn` says is not trivial. -/
example : ¬CarriesIn linkedType linkedType
    (.dict [("value", .int 1), ("next", .dict [("value", .str "two")])]) := by
  intro h
  cases h with
  | struct _ h2 _ =>
    have := h2 _ (List.mem_cons_of_mem _ (List.mem_singleton.mpr rfl)) "next" _ rfl rfl
    cases this with
    | union h3 h4 =>
      rcases List.mem_cons.mp h3 with rfl | h3
      · cases h4
      · cases List.mem_singleton.mp h3
        cases h4 with
        | reference h5 h6 h7 h8 =>
          have hu := h5
          cases h5 with
          | refl =>
            cases h8 with
            | struct _ h9 _ =>
              have := h9 _ (List.mem_cons_self ..) "value" _ rfl rfl
              cases this
          | field h9 h10 =>
            simp at h9
            rcases h9 with rfl | rfl
            · cases h10; simp [RType.attrs] at h7
            · cases h10 with
              | refl => simp [RType.attrs] at h7
              | member h11 h12 =>
                simp at h11
                rcases h11 with rfl | rfl
                · cases h12; simp [RType.attrs] at h7
                · cases h12; exact h6 ⟨_, _, rfl⟩

/-- **C130** for references, refuted as it stands: with the converter's registry, a list with two nodes is valid but is not
a value of the type, as the reference does not resolve. -/
theorem C130_references_refuted : ∃ v t ids' refs j, toRecap asciiEnv v [] = .ok (t, ids') ∧ Located refs v ∧
    Valid refs v j ∧ Moderate j ∧ ¬Carries newRegistry true t j := by
  refine ⟨_, _, _, _, twoNodes, linked_read, linked_located, (linked_valid _).mpr twoNodes_chain, twoNodes_moderate, ?_⟩
  intro h
  cases h with
  | struct _ h2 _ =>
    have := h2 _ (List.mem_cons_of_mem _ (List.mem_singleton.mpr rfl)) "next" _ rfl rfl
    cases this with
    | union h3 _ h4 =>
      rcases List.mem_cons.mp h3 with rfl | h3
      · cases h4
      · cases List.mem_singleton.mp h3
        cases h4 with
        | reference h5 _ =>
          exact absurd h5 (by rw [show resolve newRegistry .none { alias := .str "build.recap.linkedlist.schema.json" } =
            .error .typeError by decide +kernel]; simp)

theorem linked_inside : Inside (.proxy .none { alias := .str "build.recap.linkedlist.schema.json" }) linkedType :=
  .field (List.mem_cons_of_mem _ (List.mem_singleton.mpr rfl)) (.member (List.mem_cons_of_mem _ (List.mem_singleton.mpr rfl)) .refl)

/-- **C144** is false. -/
theorem C144_references_refuted : ¬ReferencesResolve asciiEnv := by
  intro h
  obtain ⟨u, hu⟩ := h _ _ _ linked_read _ _ linked_inside
  rw [show resolve newRegistry .none { alias := .str "build.recap.linkedlist.schema.json" } =
    .error .typeError by decide +kernel] at hu
  cases hu

/-- The hypotheses of `C144_named_partial` and `C144_dangling_refuted` are met by the linked list. -/
example : resolve newRegistry .none { alias := .str "build.recap.linkedlist.schema.json" } = .error .typeError :=
  C144_dangling_refuted linked_read linked_inside (by
    rintro ⟨s, t, h, hm⟩
    have : s = "build.recap.linkedlist.schema.json" := by injection h with h; exact h.symm
    subst this
    have := List.mem_map_of_mem (f := Prod.fst) hm
    exact absurd this (show "build.recap.linkedlist.schema.json" ∉ builtinAliases.map Prod.fst by decide +kernel))

/-- Registering the type does not help for long: the reference then resolves, but the reference in what it resolves to
does not. -/
theorem C144_registered_refuted : ∃ reg u r a, Registry.registerAlias newRegistry linkedType = .ok reg ∧
    resolve reg .none { alias := .str "build.recap.linkedlist.schema.json" } = .ok u ∧
    Inside (.proxy r a) u ∧ a.alias = .str "build.recap.linkedlist.schema.json" ∧ resolve reg r a = .error .typeError := by
  have h1 : Registry.registerAlias newRegistry linkedType = .ok (newRegistry ++ [("build.recap.linkedlist.schema.json",
      .struct
        [.int (.int 32) (.bool true) { extra := [("name", .str "value")] },
         .union [.null {}, .proxy (some newRegistry) { alias := .str "build.recap.linkedlist.schema.json" }]
           { extra := [("default", .none), ("name", .str "next")] }] {})]) := by decide +kernel
  refine ⟨_, .struct
        [.int (.int 32) (.bool true) { extra := [("name", .str "value")] },
         .union [.null {}, .proxy (some newRegistry) { alias := .str "build.recap.linkedlist.schema.json" }]
           { extra := [("default", .none), ("name", .str "next")] }] {}, _, _, h1, by decide +kernel,
    .field (List.mem_cons_of_mem _ (List.mem_singleton.mpr rfl)) (.member (List.mem_cons_of_mem _ (List.mem_singleton.mpr rfl)) .refl),
    rfl, by decide +kernel⟩

/-- Two schemas with different identifiers can be read as types with the same alias, so that a reference does not say which
is meant. -/
theorem C144_ambiguous_refuted : ∃ v t ids' a, toRecap asciiEnv v [] = .ok (t, ids') ∧
    Inside (.proxy .none a) t ∧ (∃ b, Inside (.int (.int 32) (.bool true) b) t ∧ b.alias = a.alias) ∧
    ∃ b, Inside (.string .none (.bool true) b) t ∧ b.alias = a.alias := by
  refine ⟨.dict [("type", .str "object"), ("required", .list [.str "a", .str "b", .str "c"]), ("properties", .dict
      [("a", .dict [("$id", .str "http://recap.build/first-name"), ("type", .str "integer")]),
       ("b", .dict [("$id", .str "http://recap.build/first_name"), ("type", .str "string")]),
       ("c", .dict [("$ref", .str "http://recap.build/first-name")])])],
    .struct
      [.int (.int 32) (.bool true) { alias := .str "build.recap.first.name", extra := [("name", .str "a")] },
       .string .none (.bool true) { alias := .str "build.recap.first.name", extra := [("name", .str "b")] },
       .proxy .none { alias := .str "build.recap.first.name", extra := [("name", .str "c")] }] {},
    ["http://recap.build/first-name".toList, "http://recap.build/first_name".toList], _, by decide +kernel, .field (List.mem_cons_of_mem _ (List.mem_cons_of_mem _ (List.mem_cons_self ..))) .refl,
    ⟨_, .field (List.mem_cons_self ..) .refl, rfl⟩, ⟨_, .field (List.mem_cons_of_mem _ (List.mem_cons_self ..)) .refl, rfl⟩⟩

/-- A reference can resolve to a built-in type although the schema it is to was read as another. -/
theorem C144_builtin_refuted : ∃ v t ids' a u, toRecap asciiEnv v [] = .ok (t, ids') ∧
    Inside (.proxy .none a) t ∧ (∃ b, Inside (.bool b) t ∧ b.alias = a.alias) ∧
    resolve newRegistry .none a = .ok u ∧ u.typeName = "int" := by
  refine ⟨.dict [("type", .str "object"), ("required", .list [.str "a", .str "b"]), ("properties", .dict
      [("a", .dict [("$id", .str "http://int32"), ("type", .str "boolean")]),
       ("b", .dict [("$ref", .str "http://int32")])])],
    .struct
      [.bool { alias := .str "int32", extra := [("name", .str "a")] },
       .proxy .none { alias := .str "int32", extra := [("name", .str "b")] }] {},
    ["http://int32".toList], { alias := .str "int32", extra := [("name", .str "b")] }, .int (.int 32) (.bool true) { extra := [("name", .str "b")] }, by decide +kernel,
    .field (List.mem_cons_of_mem _ (List.mem_cons_self ..)) .refl, ⟨_, .field (List.mem_cons_self ..) .refl, rfl⟩,
    by decide +kernel, rfl⟩

end Recap.JsonData
