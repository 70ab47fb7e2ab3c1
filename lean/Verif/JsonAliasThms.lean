import Verif.JsonAliasLemmas
import Verif.JsonRefsThms

/-!
# The aliases of types that are read from JSON Schemas with identifiers (C145)
-/

set_option autoImplicit false

namespace Recap.JsonAlias

open Url (Chars Env joinWith asciiEnv)
open Url.Spec (Parts WellFormed netlocText render Quiet)
open Recap.Spec (Ident FullyQualified)
open Json (urnToAlias toRecap)
open Json.Spec (Inside IsReference)
open JsonData (Part toRecap_parse)

variable {env : Env}

/-- The alias of the type that is read from an object with an identifier. -/
theorem root_alias {d : Dict} {id : String} {t : RType} {ids ids' : Json.Ids} (h : toRecap env (.dict d) ids = .ok (t, ids'))
    (hid : Dict.get? d "$id" = some (.str id)) :
    ∃ alias, urnToAlias env (Json.rstripHash id.toList) = .ok alias ∧ t.attrs.alias = .str (String.ofList alias) := by
  have hst : ∃ fs a, t = .struct fs a := by
    unfold toRecap at h
    obtain ⟨⟨u, i⟩, h1, h⟩ := ok_bind h
    simp only at h
    split at h
    · cases h; exact ⟨_, _, rfl⟩
    · cases h
  obtain ⟨fs, a, rfl⟩ := hst
  obtain ⟨e, ids1, h1, h2⟩ := Json.parse_dict_ok (toRecap_parse h)
  have ha : a = Json.attrsOf e := by
    cases h2 with
    | struct => rfl
    | leaf _ hp =>
      exfalso
      simp only [Json.parseLeaf] at hp
      repeat' split at hp
      all_goals first
        | (obtain ⟨-, -, -, al, -, e⟩ := JsonData.parseRef_ok hp; cases e; done)
        | (unfold Json.parseString at hp; repeat' split at hp
           all_goals cases hp)
        | cases hp
  rcases JsonData.extraAttrs_ids h1 with ⟨h3, -⟩ | ⟨s, al, h3, h4, -, h5, -⟩
  · rw [h3] at hid; cases hid
  · rw [h3] at hid
    cases hid
    exact ⟨al, h4, by rw [show (RType.struct fs a).attrs = a from rfl, ha]; exact h5⟩

/-- The alias of a type that is read from an object whose identifier is a URL is a fully qualified name exactly if the
labels of the host are identifiers and the path is made of words with one other character between any two; it is then made of
the labels in reverse order and the words in lower case. -/
theorem C145_exactly_partial {d : Dict} {id : String} {p : Parts} {t : RType} {ids ids' : Json.Ids}
    (h : toRecap env (.dict d) ids = .ok (t, ids')) (hid : Dict.get? d "$id" = some (.str id)) (hp : Identifier env id p) :
    ∃ s, t.attrs.alias = .str s ∧ (FullyQualified s ↔ ∃ labels words, Names p labels words) ∧
      ∀ labels words, Names p labels words →
        s.toList = List.intercalate ['.'] (labels.reverse ++ words.map (List.map Char.toLower)) := by
  obtain ⟨alias, h1, h2⟩ := root_alias h hid
  rw [identifier_alias hp] at h1
  cases h1
  refine ⟨_, h2, aliasOf_iff p, fun labels words hn => ?_⟩
  rw [String.toList_ofList, aliasOf_names hn, intercalate_joinWith]
  rfl

/-- **C145**, partial: if the identifiers in the document are URLs with such names, every alias in the type that is read, also
that of a reference, is a fully qualified name.  Missing: other identifiers, for which it is false. -/
theorem C145_aliases_partial {v : PyVal} {t : RType} {ids' : Json.Ids} (h : toRecap env v [] = .ok (t, ids'))
    (hv : ∀ d id, Part (.dict d) v → Dict.get? d "$id" = some (.str id) →
      ∃ p labels words, Identifier env id p ∧ Names p labels words)
    {u : RType} {s : String} (hi : Inside u t) (hs : u.attrs.alias = .str s) : FullyQualified s := by
  have hp := toRecap_parse h
  obtain ⟨id, alias, h1, h2, rfl⟩ := parse_aliases _ (Nat.le_refl _) hp hi hs
  obtain ⟨d, s', al, td, m, m', w, hw⟩ := ((JsonData.parse_ids _ (Nat.le_refl _) hp).2 _ h1).resolve_left (by simp)
  obtain ⟨p, labels, words, h3, h4⟩ := hv d s' hw.part hw.ident
  have h5 := identifier_alias h3
  rw [hw.same, h2] at h5
  cases h5
  exact (aliasOf_iff p).mpr ⟨labels, words, h4⟩

/-- **C145**, refuted for all identifiers without a host, such as `person.json`, `/schemas/person` and `urn:example:person`:
the type that is read cannot be registered. -/
theorem C145_relative_refuted {d : Dict} {id : String} {t : RType} {ids ids' : Json.Ids}
    (h : toRecap env (.dict d) ids = .ok (t, ids')) (hid : Dict.get? d "$id" = some (.str id))
    (hq : ∀ c ∈ id.toList, Quiet c) (hs : ¬∃ a b, id.toList = a ++ '/' :: '/' :: b) :
    ∃ s, t.attrs.alias = .str s ∧ ¬FullyQualified s ∧
      ∀ reg, Registry.registerAlias reg t = .error .valueError := by
  obtain ⟨alias, h1, h2⟩ := root_alias h hid
  obtain ⟨m, hm⟩ := JsonData.rstripHash_split id.toList
  obtain ⟨alias', h3, h4⟩ := hostless_alias (env := env) (id := Json.rstripHash id.toList)
    (fun c hc => hq c (by rw [hm]; exact List.mem_append_left _ hc))
    (fun ⟨a, b, e⟩ => hs ⟨a, b ++ List.replicate m '#', by rw [hm, e]; simp⟩)
  rw [h1] at h3
  cases h3
  refine ⟨_, h2, h4, fun reg => ?_⟩
  unfold Registry.registerAlias
  rw [h2]
  simp only
  split
  · rfl
  rw [if_pos]
  simpa using fun e => h4 ((aliasOk_iff _).mp e)

/-! ## Cases -/

/-- An object with an identifier. -/
def person (id : String) : Dict := [("$id", .str id), ("type", .str "object"), ("properties", .dict [])]

/-- The parts of `https://example.com/schemas/person-name.json`. -/
def personUrl : Parts :=
  { scheme := "https".toList, host := .name "example.com".toList, path := "/schemas/person-name.json".toList }

theorem personUrl_identifier : Identifier asciiEnv "https://example.com/schemas/person-name.json#" personUrl where
  wf := by constructor <;> decide +kernel
  plain := by decide +kernel
  ends := by decide +kernel
  text := ⟨1, by decide +kernel⟩

theorem word_of (w : Chars) (h : Ident (lower w) ∧ ∀ c ∈ w, Alnum c) : Word w := ident_word h.1 h.2

theorem personUrl_names : Names personUrl ["example".toList, "com".toList]
    ["schemas".toList, "person".toList, "name".toList, "json".toList] where
  host := by decide +kernel
  some_label := by simp
  label := by
    intro l hl
    simp only [List.mem_cons, List.not_mem_nil, or_false] at hl
    rcases hl with rfl | rfl
    · exact ⟨'e', "xample".toList, by decide, by decide, by decide +kernel⟩
    · exact ⟨'c', "om".toList, by decide, by decide, by decide +kernel⟩
  path := by
    refine .inr ⟨['/'], "schemas/person-name.json".toList, by decide +kernel, by decide +kernel, ?_⟩
    exact .more (w := "schemas".toList) (c := '/') (by decide) (.more (w := "person".toList) (c := '-') (by decide)
      (.more (w := "name".toList) (c := '.') (by decide) (.last (w := "json".toList) (post := []) (by simp))))
  word := by
    intro w hw
    simp only [List.mem_cons, List.not_mem_nil, or_false] at hw
    rcases hw with rfl | rfl | rfl | rfl
    · exact ⟨'s', "chemas".toList, by decide, by decide, by decide, by decide +kernel⟩
    · exact ⟨'p', "erson".toList, by decide, by decide, by decide, by decide +kernel⟩
    · exact ⟨'n', "ame".toList, by decide, by decide, by decide, by decide +kernel⟩
    · exact ⟨'j', "son".toList, by decide, by decide, by decide, by decide +kernel⟩
  two := by decide

/-- A URL with names. -/
theorem person_read : toRecap asciiEnv (.dict (person "https://example.com/schemas/person-name.json#")) [] =
    .ok (.struct [] { alias := .str "com.example.schemas.person.name.json" },
      ["https://example.com/schemas/person-name.json".toList]) := by decide +kernel

/-- The hypotheses of `C145_exactly_partial` are met. -/
example : FullyQualified "com.example.schemas.person.name.json" := by
  obtain ⟨s, h1, h2, -⟩ := C145_exactly_partial person_read rfl personUrl_identifier
  have : s = "com.example.schemas.person.name.json" := by injection h1 with h1; exact h1.symm
  subst this
  exact h2.mpr ⟨_, _, personUrl_names⟩

/-- The hypotheses of `C145_aliases_partial` are met. -/
example : FullyQualified "com.example.schemas.person.name.json" := by
  refine C145_aliases_partial person_read ?_ .refl rfl
  intro d id hp hid
  cases hp with
  | refl =>
    have : id = "https://example.com/schemas/person-name.json#" := by
      simp [person] at hid
      exact hid.symm
    subst this
    exact ⟨_, _, _, personUrl_identifier, personUrl_names⟩
  | items h _ => exact absurd h (by simp [person, Dict.get?_cons])
  | property h1 h2 _ => simp [person, Dict.get?_cons] at h1; subst h1; cases h2
  | alternative h _ _ => exact absurd h (by simp [person, Dict.get?_cons])

/-- The hypotheses of `C145_relative_refuted` are met. -/
example : Registry.registerAlias newRegistry (.struct [] { alias := .str ".person.json" }) = .error .valueError := by
  obtain ⟨s, h1, -, h3⟩ := C145_relative_refuted (env := asciiEnv) (d := person "person.json") (id := "person.json") (ids := [])
    (t := .struct [] { alias := .str ".person.json" }) (ids' := ["person.json".toList])
    (by decide +kernel) rfl (by decide +kernel) (by
      rintro ⟨a, b, h⟩
      have : '/' ∈ "person.json".toList := by rw [h]; simp
      exact absurd this (by decide +kernel))
  have : s = ".person.json" := by injection h1 with h1; exact h1.symm
  subst this
  exact h3 _

/-- Numbers in the path: a URL in the style of JSON Schema itself has an alias that is not accepted. -/
theorem C145_version_refuted : toRecap asciiEnv (.dict (person "https://example.com/draft/2020-12/schema")) [] =
      .ok (.struct [] { alias := .str "com.example.draft.2020.12.schema" },
        ["https://example.com/draft/2020-12/schema".toList]) ∧
    ¬FullyQualified "com.example.draft.2020.12.schema" :=
  ⟨by decide +kernel, fun h => absurd ((aliasOk_iff _).mpr h) (by decide +kernel)⟩

/-- A host with a port, and one without a dot. -/
theorem C145_host_refuted : toRecap asciiEnv (.dict (person "http://localhost:8000/person")) [] =
      .ok (.struct [] { alias := .str "localhost:8000.person" }, ["http://localhost:8000/person".toList]) ∧
    ¬FullyQualified "localhost:8000.person" ∧
    toRecap asciiEnv (.dict (person "http://localhost/")) [] =
      .ok (.struct [] { alias := .str "localhost" }, ["http://localhost/".toList]) ∧
    ¬FullyQualified "localhost" :=
  ⟨by decide +kernel, fun h => absurd ((aliasOk_iff _).mpr h) (by decide +kernel), by decide +kernel,
    fun h => absurd ((aliasOk_iff _).mpr h) (by decide +kernel)⟩

/-- **C145** is false. -/
theorem C145_aliases_refuted : ¬AliasesQualified asciiEnv := fun h =>
  C145_version_refuted.2 (h _ _ _ C145_version_refuted.1 _ _ .refl rfl)

end Recap.JsonAlias
