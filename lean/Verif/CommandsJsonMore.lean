import Verif.CommandsJson
import Verif.HiveThms

/-! # Tables of BigQuery and Hive as JSON Schema: helper lemmas for C116 -/

set_option autoImplicit false

namespace Recap.BigQuery

open RType Spec Relational
open Recap.Json Recap.Commands.Spec
open Recap.Json.Spec (nameOf)
open Recap.Hive (everywhere_iff isUnion_withAttrs)

/-- What all steps of `decorate` keep, `decorate` keeps. -/
theorem decorate_inv {I : RType → Prop} {mode : String} {name description dflt : PyVal} {u : RType}
    (hs : ∀ w k v, I w → I (BigQuery.setExtra w k v)) (hd : ∀ w v, I w → I (setDoc w v)) (h : I (wrap mode u)) :
    I (decorate mode name description dflt u) := by
  have e : decorate mode name description dflt u =
      (let t := wrap mode u
       let t := if name.truthy then BigQuery.setExtra t "name" name else t
       let t := if description.truthy then setDoc t description else t
       if dflt.truthy then BigQuery.setExtra t "default" dflt else t) := rfl
  rw [e]
  have last : ∀ w, I w → I (if dflt.truthy then BigQuery.setExtra w "default" dflt else w) := by
    intro w hw; split
    · exact hs _ _ _ hw
    · exact hw
  have mid : ∀ w, I w → I (if description.truthy then setDoc w description else w) := by
    intro w hw; split
    · exact hd _ _ hw
    · exact hw
  have first : ∀ w, I w → I (if name.truthy then BigQuery.setExtra w "name" name else w) := by
    intro w hw; split
    · exact hs _ _ _ hw
    · exact hw
  exact last _ (mid _ (first _ h))

theorem decorate_name {mode : String} {name description dflt : PyVal} {u : RType} (hn : name.truthy = true) :
    nameOf (decorate mode name description dflt u) = some name := by
  have e : decorate mode name description dflt u =
      (let t := BigQuery.setExtra (wrap mode u) "name" name
       let t := if description.truthy then setDoc t description else t
       if dflt.truthy then BigQuery.setExtra t "default" dflt else t) := by
    unfold decorate wrap
    rw [hn]
    rfl
  rw [e]
  have hattr : ∀ (t : RType) (x : Attrs), (t.withAttrs x).attrs = x := by intro t x; cases t <;> rfl
  have last : ∀ w, nameOf w = some name → nameOf (if dflt.truthy then BigQuery.setExtra w "default" dflt else w) = some name := by
    intro w hw; split
    · unfold nameOf BigQuery.setExtra
      rw [hattr]
      simp only
      rw [Dict.get?_set_ne _ _ (by decide)]
      exact hw
    · exact hw
  have mid : ∀ w, nameOf w = some name → nameOf (if description.truthy then setDoc w description else w) = some name := by
    intro w hw; split
    · unfold nameOf setDoc
      rw [hattr]
      exact hw
    · exact hw
  have first : nameOf (BigQuery.setExtra (wrap mode u) "name" name) = some name := by
    unfold nameOf BigQuery.setExtra
    rw [hattr]
    exact Dict.get?_set_self _ _ _
  exact last _ (mid _ first)

/-- A union of null and one other type, with a default. -/
def Opt (w : RType) : Prop := ∃ u a, w = .union [.null {}, u] a ∧ u.isNull = false ∧ "default" ∈ a.extra.keys

theorem Opt.optional {w : RType} (h : Opt w) : isOptionalField w = true := by
  obtain ⟨u, a, rfl, h1, h2⟩ := h
  exact optional_pair h1 (Dict.has_iff.mpr h2)

theorem decorate_writable {mode : String} {name description dflt : PyVal} {u : RType} {n : String}
    (hn : n ≠ "") (he : name = .str n)
    (hw : Everywhere Writable u) (hb : Bare u) (hu : u.isNullable = false) (hun : ∀ ts a, u ≠ .union ts a) :
    Everywhere Writable (decorate mode name description dflt u) ∧
    nameOf (decorate mode name description dflt u) = some (.str n) ∧
    (isOptionalField (decorate mode name description dflt u) = true ↔ mode = "NULLABLE") := by
  have hnull := isNull_of_nonNull hu
  have hwrap : Everywhere Writable (wrap mode u) ∧ (mode = "NULLABLE" → Opt (wrap mode u)) ∧
      (mode ≠ "NULLABLE" → (wrap mode u).isUnion = false) := by
    by_cases h1 : mode = "REPEATED"
    · subst h1
      exact ⟨plain_list hw rfl, fun h => absurd h (by decide), fun _ => rfl⟩
    · by_cases h2 : mode = "NULLABLE"
      · subst h2
        rw [wrap_nullable hb hu hun]
        exact ⟨plain_union (by simpa using hw) rfl (by simpa using hnull),
          fun _ => ⟨u, _, rfl, hnull, by simp [Dict.keys]⟩, fun h => absurd rfl h⟩
      · rw [wrap_other h1 h2]
        refine ⟨hw, fun h => absurd h h2, fun _ => ?_⟩
        cases u <;> first | rfl | exact absurd rfl (hun _ _)
  obtain ⟨w1, w2, w3⟩ := hwrap
  refine ⟨?_, ?_, ?_⟩
  · refine decorate_inv (I := Everywhere Writable) ?_ ?_ w1
    · intro w k v h; exact plain_withAttrs h (everywhere_iff.mp h).1.alias
    · intro w v h; exact plain_withAttrs h (everywhere_iff.mp h).1.alias
  · rw [decorate_name (by rw [he]; simpa [PyVal.truthy] using hn), he]
  · constructor
    · intro h
      refine Classical.byContradiction fun hm => ?_
      have : (decorate mode name description dflt u).isUnion = false := by
        refine decorate_inv (I := fun w => w.isUnion = false) ?_ ?_ (w3 hm)
        · intro w k v h; exact (isUnion_withAttrs _ _).trans h
        · intro w v h; exact (isUnion_withAttrs _ _).trans h
      cases hd : decorate mode name description dflt u <;> rw [hd] at h this <;> first | cases h | cases this
    · intro hm
      refine Opt.optional (decorate_inv (I := Opt) ?_ ?_ (w2 hm))
      · rintro w k v ⟨u, a, rfl, h1, h2⟩
        exact ⟨u, _, rfl, h1, by
          show "default" ∈ Dict.keys (Dict.set a.extra k v)
          rw [Dict.keys_set]; split <;> simp [h2]⟩
      · rintro w v ⟨u, a, rfl, h1, h2⟩
        exact ⟨u, _, rfl, h1, h2⟩

theorem scalar_plain {ft : String} {l p s : PyVal} : Yields (Everywhere Writable) (scalar ft l p s) := by
  unfold scalar
  branches
  all_goals exact plain_leaf rfl rfl rfl

mutual
theorem fieldOf_writable : ∀ (f : Field) (t : RType), fieldOf f = .ok t → Named f →
    Everywhere Writable t ∧ (∃ n, n ≠ "" ∧ nameOf t = some (.str n)) ∧ nameOf t = some f.name ∧
      (isOptionalField t = true ↔ f.mode = "NULLABLE")
  | .mk fieldType mode name description dflt maxLength precision scale fields, t, h, hu => by
    rw [Named] at hu
    obtain ⟨⟨n, hne, rfl⟩, hs⟩ := hu
    have fin : ∀ {u : RType}, Everywhere Writable u → Bare u → u.isNullable = false → (∀ ts a, u ≠ .union ts a) →
        Everywhere Writable (decorate mode (.str n) description dflt u) ∧
        (∃ m, m ≠ "" ∧ nameOf (decorate mode (.str n) description dflt u) = some (.str m)) ∧
        nameOf (decorate mode (.str n) description dflt u) = some (.str n) ∧
        (isOptionalField (decorate mode (.str n) description dflt u) = true ↔ mode = "NULLABLE") := by
      intro u h1 h2 h3 h4
      obtain ⟨a, b, c⟩ := decorate_writable (description := description) (dflt := dflt) (mode := mode) hne rfl h1 h2 h3 h4
      exact ⟨a, ⟨n, hne, b⟩, b, c⟩
    rw [fieldOf] at h
    split at h
    · obtain ⟨fs, h1, h⟩ := bind_ok h
      cases h
      have ih := fieldsOf_writable fields fs h1 hs
      exact fin (plain_struct (fun f hf => (ih f hf).1) rfl (fun f hf => (ih f hf).2)) ⟨rfl, rfl, rfl⟩ rfl
        (fun _ _ h => nomatch h)
    · obtain ⟨u, h1, h⟩ := bind_ok h
      cases h
      have hf := scalar_fresh h1
      exact fin (scalar_plain _ h1) hf.1 hf.2.1 hf.2.2.1
theorem fieldsOf_writable : ∀ (fs : List Field) (ts : List RType), fieldsOf fs = .ok ts → NamedAll fs →
    ∀ t ∈ ts, Everywhere Writable t ∧ ∃ n, n ≠ "" ∧ nameOf t = some (.str n)
  | [], ts, h, _ => by
    rw [fieldsOf] at h
    cases h
    simp
  | f :: fs, ts, h, hu => by
    rw [NamedAll] at hu
    rw [fieldsOf] at h
    obtain ⟨t, h1, h⟩ := bind_ok h
    obtain ⟨us, h2, h⟩ := bind_ok h
    cases h
    have i1 := fieldOf_writable f t h1 hu.1
    have i2 := fieldsOf_writable fs us h2 hu.2
    intro u hu'
    rcases List.mem_cons.mp hu' with rfl | hu'
    · exact ⟨i1.1, i1.2.1⟩
    · exact i2 u hu'
end

/-- Fields and columns belong to each other. -/
theorem fieldsOf_mem : ∀ {fs : List Field} {ts : List RType}, fieldsOf fs = .ok ts →
    (∀ f ∈ fs, ∃ t ∈ ts, fieldOf f = .ok t) ∧ ∀ t ∈ ts, ∃ f ∈ fs, fieldOf f = .ok t
  | [], ts, h => by
    rw [fieldsOf] at h
    cases h
    simp
  | f :: fs, ts, h => by
    rw [fieldsOf] at h
    obtain ⟨t, h1, h⟩ := bind_ok h
    obtain ⟨us, h2, h⟩ := bind_ok h
    cases h
    obtain ⟨i1, i2⟩ := fieldsOf_mem h2
    constructor
    · intro g hg
      rcases List.mem_cons.mp hg with rfl | hg
      · exact ⟨t, by simp, h1⟩
      · obtain ⟨u, hu, e⟩ := i1 g hg
        exact ⟨u, List.mem_cons_of_mem _ hu, e⟩
    · intro u hu
      rcases List.mem_cons.mp hu with rfl | hu
      · exact ⟨f, by simp, h1⟩
      · obtain ⟨g, hg, e⟩ := i2 u hu
        exact ⟨g, List.mem_cons_of_mem _ hg, e⟩

theorem namedAll_mem {fs : List Field} (h : NamedAll fs) : ∀ f ∈ fs, Named f := by
  induction fs with
  | nil => simp
  | cons f fs ih =>
    rw [NamedAll] at h
    intro g hg
    rcases List.mem_cons.mp hg with rfl | hg
    · exact h.1
    · exact ih h.2 g hg

end Recap.BigQuery

namespace Recap.Hive

open RType Spec Relational
open Recap.Json Recap.Commands.Spec
open Recap.Json.Spec (nameOf)

theorem hpiece_writable {P : PyVal → Prop} {t : RType} (h : Everywhere (HPiece P (· ≠ "")) t) : Everywhere Writable t := by
  intro u hu
  have hp := h u hu
  refine ⟨hp.proxy, hp.alias, ?_, ?_⟩
  · intro ts a e m hm hn
    obtain ⟨rest, rfl, -, -, -, ho⟩ := hp.union ts a e
    rcases List.mem_cons.mp hm with rfl | hm
    · rfl
    · rw [(ho m hm).null] at hn; cases hn
  · intro fs a e f hf
    obtain ⟨-, n, h1, h2⟩ := hp.struct fs a e f hf
    exact ⟨n, h1, h2⟩

theorem optional_makeNullable {t : RType} (h1 : t.isUnion = false) (h2 : t.isNull = false) :
    isOptionalField (makeNullable t) = true := by
  have e : makeNullable t = .union [.null {}, t.withAttrs { t.attrs with doc := .none, extra := demoted t.attrs.extra }]
      { doc := t.attrs.doc, extra := promoted t.attrs } := by
    cases t <;> first | (cases h1; done) | (cases h2; done) | rfl
  rw [e]
  refine optional_pair (by rw [isNull_withAttrs]; exact h2) (Dict.has_iff.mpr ?_)
  unfold promoted
  cases Dict.get? t.attrs.extra "name" <;> simp [Dict.keys]

theorem optional_finish {t : RType} (h1 : t.isUnion = false) (h2 : t.isNull = false) :
    isOptionalField (finish t) = true := by
  unfold finish
  rw [h1, h2]
  exact optional_makeNullable h1 h2

/-- Columns that are neither void nor unions are optional. -/
theorem parse_optional {x : Attrs} {h : HType} {t : RType} (hv : h ≠ .prim .void) (hu : ∀ ts, h ≠ .union ts)
    (hp : Hive.parse x h = .ok t) : isOptionalField t = true := by
  cases h with
  | prim c =>
    rw [Hive.parse] at hp
    cases c <;> simp only [primitive, bind, Except.bind, pure, Except.pure] at hp <;>
      first | exact absurd rfl hv | (cases hp <;> exact optional_finish rfl rfl)
  | decimal p s =>
    rw [Hive.parse] at hp
    split at hp <;> cases hp
    exact optional_finish rfl rfl
  | varchar n => rw [Hive.parse] at hp; cases hp; exact optional_finish rfl rfl
  | char n => rw [Hive.parse] at hp; cases hp; exact optional_finish rfl rfl
  | map k v =>
    rw [Hive.parse] at hp
    obtain ⟨_, -, hp⟩ := bind_ok hp
    obtain ⟨_, -, hp⟩ := bind_ok hp
    cases hp; exact optional_finish rfl rfl
  | list e =>
    rw [Hive.parse] at hp
    obtain ⟨_, -, hp⟩ := bind_ok hp
    cases hp; exact optional_finish rfl rfl
  | union ts => exact absurd rfl (hu ts)
  | struct fs =>
    rw [Hive.parse] at hp
    obtain ⟨_, -, hp⟩ := bind_ok hp
    cases hp; exact optional_finish rfl rfl

theorem parseColumns_mem : ∀ {cs : List HColumn} {ts : List RType}, parseColumns cs = .ok ts →
    (∀ c ∈ cs, ∃ t ∈ ts, Hive.parse (columnAttrs c.name c.comment) c.type = .ok t) ∧
    ∀ t ∈ ts, ∃ c ∈ cs, Hive.parse (columnAttrs c.name c.comment) c.type = .ok t
  | [], ts, h => by
    rw [parseColumns] at h
    cases h
    simp
  | f :: fs, ts, h => by
    rw [parseColumns] at h
    obtain ⟨t, h1, h⟩ := bind_ok h
    obtain ⟨us, h2, h⟩ := bind_ok h
    cases h
    obtain ⟨i1, i2⟩ := parseColumns_mem h2
    constructor
    · intro g hg
      rcases List.mem_cons.mp hg with rfl | hg
      · exact ⟨t, by simp, h1⟩
      · obtain ⟨u, hu, e⟩ := i1 g hg
        exact ⟨u, List.mem_cons_of_mem _ hu, e⟩
    · intro u hu
      rcases List.mem_cons.mp hu with rfl | hu
      · exact ⟨f, by simp, h1⟩
      · obtain ⟨g, hg, e⟩ := i2 u hu
        exact ⟨g, List.mem_cons_of_mem _ hg, e⟩

theorem parse_nameOf {x : Attrs} {h : HType} {t : RType} (hx : Given x) (hp : Hive.parse x h = .ok t) :
    nameOf t = Dict.get? x.extra "name" :=
  (parse_h (P := fun _ => True) (N := fun _ => True) trivial x h t hx trivial (fieldNames_true h) hp).2.2

end Recap.Hive
