import Verif.EndToEndFileSpec
import Verif.EndToEndBqThms
import Verif.FilesThms
import Verif.JsonKeptThms

/-!
# C152 for files: what is printed for the path of a JSON Schema means the same as the file

The specification is in `EndToEndFileSpec.lean`.
-/

set_option autoImplicit false

namespace Recap.EndToEnd

open Recap.Url Recap.Url.Spec Recap.Clients Recap.Clients.Spec Recap.Commands Recap.Commands.Spec
open Recap.JsonText Recap.JsonText.Spec Recap.Spec
open Recap.JsonData (Valid Interprets Kept Covered Part kept_no_proxy kept_aliases kept_parts word_read leaf_read kept_refs
  parseAll_back C152_same_partial C152_written_partial)
open Recap.Json (Read parse_dict_ok attrsOf extraAttrs copied named optionalField Writable aliasDefs_plain)
open Recap.Json.Spec (Inside)
open Recap.Hive (everywhere_iff)
open Recap.Files (place)

/-! ## JSON texts have values of Python -/

theorem real_fold {kvs : List (String × PyVal)} (h : ∀ kv ∈ kvs, Real kv.2) {d : Dict} (hd : RealDict d) :
    RealDict (kvs.foldl (fun d kv => Dict.set d kv.1 kv.2) d) := by
  induction kvs generalizing d with
  | nil => exact hd
  | cons kv kvs ih => exact ih (fun x hx => h x (by simp [hx])) (hd.set _ (h kv (by simp)))

theorem real_json {F : Floats} (hF : Lawful F) {v : PyVal} {s : Str} (h : JsonText.Spec.Json F v s) : Real v := by
  refine JsonText.Spec.Json.rec (motive_1 := fun v _ _ => Real v) (motive_2 := fun xs _ _ => ∀ x ∈ xs, Real x)
    (motive_3 := fun xs _ _ => ∀ x ∈ xs, Real x.2) trivial trivial trivial (fun _ => trivial) ?_ (fun _ => trivial)
    (fun _ => trivial) (fun _ ih => real_list.mpr ih) (fun _ => realDict_iff.mpr ⟨by simp [Dict.keys], by simp⟩)
    (fun _ ih => real_fold ih (realDict_iff.mpr ⟨by simp [Dict.keys], by simp⟩)) ?_ ?_ ?_ ?_ h
  · intro v s _ h
    obtain ⟨m, e, rfl, hd⟩ := hF.double _ _ h
    exact hd
  · intro x w s w' _ _ _ h1
    simpa using h1
  · intro x xs w s w' r _ _ _ _ h1 h2 y hy
    rcases List.mem_cons.mp hy with rfl | hy
    · exact h1
    · exact h2 y hy
  · intro cs k x w w1 w2 s w' _ _ _ _ _ _ h1
    simpa using h1
  · intro cs k x kvs w w1 w2 s w' r _ _ _ _ _ _ _ h1 h2 y hy
    rcases List.mem_cons.mp hy with rfl | hy
    · exact h1
    · exact h2 y hy

/-! ## What is read from them has values of Python -/

theorem real_nil : RealDict [] := realDict_iff.mpr ⟨by simp [Dict.keys], by simp⟩

theorem extra_real {env : Env} {d e : Dict} {i i' : Json.Ids} (hd : RealDict d) (h : extraAttrs env (.dict d) i = .ok (e, i')) :
    RealDict e := by
  have base : RealDict (copied d "description" "doc" ++ copied d "default" "default") := by
    unfold copied
    cases h1 : Dict.get? d "description" <;> cases h2 : Dict.get? d "default" <;> simp only [List.nil_append, List.cons_append]
    · exact real_nil
    · exact real_one (hd.get? h2)
    · exact real_one (hd.get? h1)
    · exact real_two (by decide) (hd.get? h1) (hd.get? h2)
  unfold extraAttrs at h
  simp only at h
  split at h
  · cases h; exact base
  · obtain ⟨alias, -, h⟩ := ok_bind h
    cases h
    have hk : "alias" ∉ Dict.keys (copied d "description" "doc" ++ copied d "default" "default") := by
      unfold copied
      cases Dict.get? d "description" <;> cases Dict.get? d "default" <;> simp [Dict.keys]
    obtain ⟨b1, b2⟩ := realDict_iff.mp base
    refine realDict_iff.mpr ⟨?_, ?_⟩
    · simp only [Dict.keys, List.map_append, List.map_cons, List.map_nil] at b1 hk ⊢
      rw [List.nodup_append]
      exact ⟨b1, by simp, by rintro a ha b hb rfl; simp only [List.mem_singleton] at hb; exact hk (hb ▸ ha)⟩
    · intro kv hkv
      rcases List.mem_append.mp hkv with h | h
      · exact b2 kv h
      · simp only [List.mem_singleton] at h; subst h; trivial
  · cases h
  · cases h

theorem attrs_real {e : Dict} (he : RealDict e) {l : PyVal} (hl : Real l) :
    Real (attrsOf e l).logical ∧ Real (attrsOf e l).alias ∧ Real (attrsOf e l).doc ∧ RealDict (attrsOf e l).extra :=
  ⟨hl, he.getD trivial, he.getD trivial, he.filter _⟩

theorem realType_attrs {t : RType} (h : RealType t) : Real t.attrs.logical ∧ Real t.attrs.alias ∧ Real t.attrs.doc ∧
    RealDict t.attrs.extra := by
  obtain ⟨h1, h2, h3, h4, -⟩ := h t .refl
  exact ⟨h1, h2, h3, h4⟩

theorem realType_leaf {t : RType} (h : Real t.attrs.logical ∧ Real t.attrs.alias ∧ Real t.attrs.doc ∧ RealDict t.attrs.extra)
    (hp : ∀ kv ∈ Spec.params t, Real kv.2) (hc : ∀ c ∈ children t, RealType c) : RealType t :=
  realType_iff.mpr ⟨⟨h.1, h.2.1, h.2.2.1, h.2.2.2, hp⟩, hc⟩

theorem null_real : RealType (.null {}) :=
  realType_leaf ⟨trivial, trivial, trivial, real_nil⟩ (by simp [Spec.params]) (by simp [children])

theorem addNull_real {ts : List RType} (h : ∀ t ∈ ts, RealType t) : ∀ t ∈ RType.addNull ts, RealType t := by
  unfold RType.addNull
  split
  · exact h
  · intro t ht
    rcases List.mem_cons.mp ht with rfl | ht
    · exact null_real
    · exact h t ht

theorem promoted_real {a : Attrs} (h : RealDict a.extra) : RealDict (RType.promoted a) := by
  unfold RType.promoted
  simp only
  cases hn : Dict.get? a.extra "name" with
  | none => exact real_one (h.getD trivial)
  | some n => exact real_two (by decide) (h.getD trivial) (h.get? hn)

theorem demoted_real {e : Dict} (h : RealDict e) : RealDict (RType.demoted e) := (h.erase _).erase _

theorem makeNullable_real {t : RType} (h : RealType t) : RealType t.makeNullable := by
  obtain ⟨h1, h2, h3, h4⟩ := realType_attrs h
  have other : RealType (.union (RType.addNull [t.withAttrs { t.attrs with doc := .none, extra := RType.demoted t.attrs.extra }])
      { doc := t.attrs.doc, extra := RType.promoted t.attrs }) := by
    refine realType_leaf ⟨trivial, trivial, h3, promoted_real h4⟩ (by simp [Spec.params]) (addNull_real ?_)
    simp only [List.mem_singleton, forall_eq]
    exact realType_with h h1 h2 trivial (demoted_real h4)
  cases t with
  | union ts a =>
    change RealType (.union (RType.addNull ts)
      { logical := a.logical, alias := a.alias, doc := a.doc, extra := RType.demoted a.extra ++ RType.promoted a })
    refine realType_leaf ⟨h1, h2, h3, ?_⟩ (by simp [Spec.params]) (addNull_real (realType_iff.mp h).2)
    have hd := realDict_iff.mp (demoted_real h4)
    have hp := realDict_iff.mp (promoted_real h4)
    refine realDict_iff.mpr ⟨?_, fun kv hkv => (List.mem_append.mp hkv).elim (hd.2 kv) (hp.2 kv)⟩
    have : ∀ k ∈ Dict.keys (RType.promoted a), k = "default" ∨ k = "name" := by
      unfold RType.promoted
      simp only
      cases Dict.get? a.extra "name" <;> simp [Dict.keys]
    have h' : ∀ k ∈ Dict.keys (RType.demoted a.extra), k ≠ "default" ∧ k ≠ "name" := by
      intro k hk
      obtain ⟨kv, hkv, rfl⟩ := List.mem_map.mp hk
      simp only [RType.demoted, Dict.erase, List.mem_filter, bne_iff_ne, ne_eq] at hkv
      grind
    simp only [RType.attrs, Dict.keys, List.map_append] at hd hp this h' ⊢
    rw [List.nodup_append]
    refine ⟨hd.1, hp.1, ?_⟩
    rintro x hx y hy rfl
    rcases this x hy with e | e
    · exact (h' x hx).1 e
    · exact (h' x hx).2 e
  | _ => exact other

theorem prop_real {t : RType} {name : String} {l : Bool} (h : RealType t) :
    RealType (named name (if l then t else optionalField t)) := by
  have hn : ∀ {u : RType}, RealType u → RealType (named name u) := by
    intro u hu
    obtain ⟨h1, h2, h3, h4⟩ := realType_attrs hu
    exact realType_with hu h1 h2 h3 (h4.set _ trivial)
  refine hn ?_
  split
  · exact h
  · unfold optionalField
    simp only
    have hm : RealType (if t.isNullable then t else t.makeNullable) := by
      split
      · exact h
      · exact makeNullable_real h
    generalize (if t.isNullable then t else t.makeNullable) = w at hm ⊢
    split
    · exact hm
    · obtain ⟨h1, h2, h3, h4⟩ := realType_attrs hm
      exact realType_with hm h1 h2 h3 (h4.set _ trivial)

theorem kept_real {env : Env} {v : PyVal} (hk : Kept v) : ∀ {i i' : Json.Ids} {t : RType}, Real v →
    Json.parse env v i = .ok (t, i') → RealType t := by
  induction hk with
  | @mk d h1 h2 h3 h4 h5 h6 ih4 ih5 =>
    intro i i' t hd h
    replace hd : RealDict d := hd
    obtain ⟨e, ids1, he, hr⟩ := parse_dict_ok h
    have hre := extra_real hd he
    have ha := attrs_real hre (l := .none) trivial
    cases hr with
    | @union xs ts _ ht hp =>
      refine realType_leaf ha (by simp [Spec.params]) fun u hu => ?_
      obtain ⟨ss, rfl, -⟩ := h3 _ ht
      obtain ⟨x, hx, j, j', hw⟩ := parseAll_back hp hu
      obtain ⟨s, -, rfl⟩ := List.mem_map.mp hx
      rcases word_read hw with ⟨-, rfl⟩ | ⟨-, rfl⟩ | ⟨-, rfl⟩ | ⟨-, rfl⟩ | ⟨-, rfl⟩ <;>
        exact realType_leaf ⟨trivial, trivial, trivial, real_nil⟩ (by simp [Spec.params, Real]) (by simp [children])
    | list ht hi hp =>
      refine realType_leaf ha (by simp [Spec.params, Real]) fun u hu => ?_
      simp only [children, List.mem_singleton] at hu
      subst hu
      exact ih4 _ hi (hd.get? hi) hp
    | @struct ps ts _ ht hps hp =>
      refine realType_leaf ha (by simp [Spec.params]) fun u hu => ?_
      obtain ⟨name, prop, w, l, j, j', g1, g2, g3, rfl⟩ := JsonData.parseProps_mem hp hu
      exact prop_real (ih5 _ _ _ hps g1 ((realDict_iff.mp (hd.get? hps)).2 _ g1) g2)
    | leaf _ hl =>
      have hstr : RealType (Json.parseString e (Dict.get? d "format")) := by
        unfold Json.parseString
        repeat' split
        all_goals exact realType_leaf (attrs_real hre trivial) (by simp [Spec.params, Real]) (by simp [children])
      simp only [Json.parseLeaf, Dict.get?_eq_none_iff.mpr h1, Dict.get?_eq_none_iff.mpr h2] at hl
      repeat' split at hl
      all_goals first
        | cases hl; exact hstr
        | cases hl; exact realType_leaf ha (by simp [Spec.params, Real]) (by simp [children])
        | cases hl

theorem kept_writable {env : Env} {v : PyVal} (hk : Kept v) (hn : Nameless v) {i i' : Json.Ids} {t : RType}
    (hp : Json.parse env v i = .ok (t, i')) : Everywhere Writable t := by
  have sub : ∀ {u w : RType}, Recap.Spec.Sub u w → (∀ x, Inside x w → ∀ k v a, x ≠ .map k v a) → Inside u w := by
    intro u w hs
    induction hs with
    | refl => exact fun _ => .refl
    | list _ ih => exact fun hm => .list (ih fun x hx => hm x (.list hx))
    | key _ ih => exact fun hm => absurd rfl (hm _ .refl _ _ _)
    | value _ ih => exact fun hm => absurd rfl (hm _ .refl _ _ _)
    | field h _ ih => exact fun hm => .field h (ih fun x hx => hm x (.field h hx))
    | member h _ ih => exact fun hm => .member h (ih fun x hx => hm x (.member h hx))
  intro u hu
  have hi : Inside u t := sub hu fun x hx => (kept_no_proxy hk hp hx).2
  exact ⟨(kept_no_proxy hk hp hi).1, kept_aliases hk hp hn.ids hi, (kept_parts hk hp hn.names hi).1,
    (kept_parts hk hp hn.names hi).2⟩

theorem written_real {live : Registry} {t : RType} {d : Dict} (hr : RealType t) (hw : Everywhere Writable t)
    (h : Json.fromRecap live t = .ok d) : Real (.dict d) := by
  unfold Json.fromRecap at h
  obtain ⟨d', h1, h⟩ := ok_bind h
  rw [aliasDefs_plain _ hw] at h
  cases h
  exact convert_real _ _ _ _ hr (fun u hu => (hw u hu).proxy) h1

/-! ## From the path to the text -/

variable {F : Floats} {s : System} {confs : List Parts} {path : Chars} {files : Bool × List Chars → Option Str} {text : Str}
  {v : PyVal}

/-- **C152** for files: what `recap schema` prints as JSON Schema for the path of a JSON Schema is a JSON text of a schema
against which the same values are valid as against the one in that file, for schemas as in `C152_same_partial`. -/
theorem C152_file_partial (hF : Lawful F) (hb : BehindFiles F s.env files s.world) (ho : OrdinaryFile s confs path)
    (ht : files (place path) = some text) (hj : IsJson F v text) (hk : Kept v) (hc : Covered v) (hn : Nameless v) {p : Printed}
    (h : recapSchema F s path .json = .ok p) :
    ∃ out d, p = .text out ∧ IsJson F (.dict d) out ∧ (∀ w, IsJson F w out → w = .dict d) ∧
      ∀ refs refs' j, Interprets refs' d → (Valid refs' (.dict d) j ↔ Valid refs v j) := by
  unfold recapSchema cliSchema at h
  obtain ⟨o, h1, h⟩ := ok_bind h
  cases h
  obtain ⟨c, kw, src, t, live, g1, g2, g3⟩ := schema_iff.mp h1
  obtain ⟨q, hq, hpl⟩ := Files.C153_paths_partial s.mysqlArgs confs path .json ho.known ho.others ho.plain ho.format
  rw [ho.urls, hq] at g1
  simp only [Except.ok.injEq, Prod.mk.injEq] at g1
  obtain ⟨rfl, rfl, rfl⟩ := g1
  have hb := hb q text v (by rw [hpl]; exact ht) hj
  cases hr : Json.toRecap s.env v [] with
  | error e =>
    rw [hr] at hb
    obtain ⟨e', hb⟩ := hb
    rw [hb] at g2
    cases g2
  | ok r =>
    obtain ⟨t', ids'⟩ := r
    rw [hr] at hb
    obtain ⟨live', hb⟩ := hb
    rw [hb] at g2
    cases g2
    have hp := JsonData.toRecap_parse hr
    have hw := kept_writable hk hn hp
    cases g3 with
    | @json d hd =>
      obtain ⟨b, body, b', -, hjs, -⟩ := hj
      have hreal := printed hF (written_real (kept_real hk (real_json hF hjs) hp) hw hd)
      refine ⟨_, _, rfl, hreal, fun w hw => C122_unambiguous hw hreal, fun refs refs' j hi => ?_⟩
      refine C152_same_partial hr hd hi hk hc (fun e he hid => absurd hid (hn.ids e he)) fun a ha => ?_
      have := (hw t .refl).alias
      rw [this] at ha
      cases ha

/-- **C152** for files: if the schema can be read, then something is printed. -/
theorem C152_file_printed_partial (hb : BehindFiles F s.env files s.world) (ho : OrdinaryFile s confs path)
    (ht : files (place path) = some text) (hj : IsJson F v text) (hk : Kept v) (hn : Nameless v) {t : RType} {ids' : Json.Ids}
    (hr : Json.toRecap s.env v [] = .ok (t, ids')) : ∃ p, recapSchema F s path .json = .ok p := by
  obtain ⟨q, hq, hpl⟩ := Files.C153_paths_partial s.mysqlArgs confs path .json ho.known ho.others ho.plain ho.format
  have hb := hb q text v (by rw [hpl]; exact ht) hj
  rw [hr] at hb
  obtain ⟨live, hb⟩ := hb
  obtain ⟨d, hd⟩ := C152_written_partial (live := live) hr hk hn.ids hn.names
  have : Commands.schema s path .json false = .ok (.dict d) :=
    schema_iff.mpr ⟨_, _, _, t, live, by rw [ho.urls]; exact hq, hb, .json hd⟩
  exact ⟨_, by simp only [recapSchema, cliSchema, this, bind, Except.bind, pure, Except.pure]; rfl⟩

/-! ## An example -/

/-- `{"type": "object", "properties": {"n": {"type": "integer"}}, "required": ["n"]}` -/
def countDict : Dict :=
  [("type", .str "object"), ("properties", .dict [("n", .dict [("type", .str "integer")])]), ("required", .list [.str "n"])]

/-- The file system has one file, `/data/count.json`. -/
def countFiles (F : Floats) (p : Bool × List Chars) : Option Str :=
  if p = (true, ["data".toList, "count.json".toList]) then some (dumps F .pretty (.dict countDict)) else .none

/-- The client reads this file. -/
def countSystem (mysqlArgs : List String) : System where
  env := asciiEnv
  mysqlArgs := mysqlArgs
  urls := []
  world :=
    { children := fun _ _ _ => .error .valueError
      type := fun _ _ _ => .ok (.struct [.int (.int 32) (.bool true) { extra := [("name", .str "n")] }] {}, []) }

theorem count_parts {e : Dict} (h : Part (.dict e) (.dict countDict)) :
    e = countDict ∨ e = [("type", .str "integer")] := by
  cases h with
  | refl => exact .inl rfl
  | items h => simp [countDict, Dict.get?_cons] at h
  | alternative h => simp [countDict] at h
  | property h hm hp =>
    simp [countDict, Dict.get?_cons] at h
    subst h
    simp at hm
    obtain ⟨-, rfl⟩ := hm
    cases hp with
    | refl => exact .inr rfl
    | items h => simp [Dict.get?_cons] at h
    | property h => simp [Dict.get?_cons] at h
    | alternative h => simp at h

theorem count_nameless : Nameless (.dict countDict) := by
  constructor
  · intro e h
    rcases count_parts h with rfl | rfl <;> decide
  · intro e ps n s h hp hm
    rcases count_parts h with rfl | rfl
    · simp [countDict, Dict.get?_cons] at hp
      subst hp
      simp at hm
      simp [hm]
    · simp [Dict.get?_cons] at hp

/-- The hypotheses of C152 for files are met: a schema for objects with an integer `n` is printed. -/
example {F : Floats} (hF : Lawful F) (mysqlArgs : List String) :
    ∃ out d, recapSchema F (countSystem mysqlArgs) "/data/count.json".toList .json = .ok (.text out) ∧ IsJson F (.dict d) out ∧
      ∀ refs refs' j, Interprets refs' d → (Valid refs' (.dict d) j ↔ Valid refs (.dict countDict) j) := by
  have hk : Kept (.dict countDict) := by
    refine .mk (by decide) (by decide) (by simp [countDict]) (by simp [countDict, Dict.get?_cons]) ?_ ?_
    · intro ps n s hp hm
      simp [countDict, Dict.get?_cons] at hp
      subst hp
      simp at hm
      obtain ⟨-, rfl⟩ := hm
      exact JsonData.kept_small (by decide) (by decide) (by simp) (by decide) (by decide)
    · intro ps n s hp hm _
      simp [countDict, Dict.get?_cons] at hp
      subst hp
      simp at hm
      obtain ⟨-, rfl⟩ := hm
      exact ⟨_, "integer", rfl, by decide, .inl rfl⟩
  have hc : Covered (.dict countDict) := by
    refine .mk (by decide) (by decide) ?_ (by simp [countDict, Dict.get?_cons]) ?_ ?_
    · intro r hr
      simp [countDict, Dict.get?_cons] at hr
      subst hr
      exact ⟨_, rfl, fun x hx => ⟨"n", [("n", .dict [("type", .str "integer")])], .dict [("type", .str "integer")],
        by simpa using hx, rfl, by simp⟩⟩
    · intro p hp
      simp [countDict, Dict.get?_cons] at hp
      subst hp
      exact ⟨_, rfl, by decide⟩
    · intro ps n s hp hm
      simp [countDict, Dict.get?_cons] at hp
      subst hp
      simp at hm
      obtain ⟨-, rfl⟩ := hm
      exact .mk (by decide) (by decide) (by simp [Dict.get?_cons]) (by simp [Dict.get?_cons]) (by simp [Dict.get?_cons])
        (by simp [Dict.get?_cons])
  have hreal : Real (.dict countDict) := by simp [countDict, Real, RealPairs, RealAll]
  have hr : Json.toRecap asciiEnv (.dict countDict) [] =
      .ok (.struct [.int (.int 32) (.bool true) { extra := [("name", .str "n")] }] {}, []) := by rfl
  have hb : BehindFiles F asciiEnv (countFiles F) (countSystem mysqlArgs).world := by
    intro path text v ht hv
    unfold countFiles at ht
    split at ht
    · cases ht
      rw [C122_unambiguous hv (printed hF hreal), hr]
      exact ⟨_, rfl⟩
    · cases ht
  have ho : OrdinaryFile (countSystem mysqlArgs) [] "/data/count.json".toList :=
    ⟨rfl, by simp, by simp, ⟨by decide, by decide, by decide⟩,
      ⟨["data".toList], "count".toList, "json".toList, by decide, by decide, by decide, by decide⟩⟩
  have ht : countFiles F (place "/data/count.json".toList) = some (dumps F .pretty (.dict countDict)) := if_pos (by decide)
  obtain ⟨p, hp⟩ := C152_file_printed_partial (F := F) hb ho ht (printed hF hreal) hk count_nameless hr
  obtain ⟨out, d, rfl, h1, -, h2⟩ := C152_file_partial hF hb ho ht (printed hF hreal) hk hc count_nameless hp
  exact ⟨out, d, hp, h1, h2⟩

end Recap.EndToEnd
