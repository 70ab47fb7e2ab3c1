import Verif.ProtobufFile

/-!
# The Protobuf files that are written

Properties C64, C100, C101, C103, C104, C106, C108.
-/

set_option autoImplicit false

namespace Recap.Protobuf

open Recap.Protobuf.Spec Recap.Spec

/-! ## Examples -/

/-- A required field with a name. -/
def int32 (name : String) : RType := .int (.int 32) (.bool true) { extra := [("name", .str name)] }

/-- A struct with nested structs and an enum:
`message T { int32 x; oneof o { int32 a; bool b } message S { E e } enum E { A, B } }`. -/
def exS : RType := .struct [.enum (.list [.str "A", .str "B"]) { alias := .str "p.T.E", extra := [("name", .str "e")] }]
  { alias := .str "p.T.S", extra := [("name", .str "s")] }

def exT : RType := .struct [int32 "x", exS,
  .union [.null {}, int32 "a", .bool { extra := [("name", .str "b")] }] { extra := [("name", .str "o")] }]
  { alias := .str "p.T" }

def exFile : List Elem := [.package "p", .message "T" [
  .field (.str "x") 1 "int32" .none,
  .field (.str "s") 2 ".p.T.S" .none,
  .oneof (.str "o") [.field (.str "a") 3 "int32" .none, .field (.str "b") 4 "bool" .none],
  .enum "E" [(.str "A", 0), (.str "B", 1)],
  .message "S" [.field (.str "e") 1 ".p.T.E" .none]]]

theorem exT_file : fromRecap exT = .ok exFile := by rfl

theorem alias_of (a : Attrs) (p n : String) (h : a.alias = .str (p ++ "." ++ n))
    (hn : n.toList.contains '.' = false) : Alias a p n :=
  ⟨h, fun hm => by simp [hm] at hn⟩

theorem exT_has_S : Has exT exS "p.T" "S" :=
  ⟨.field (t := exS) (by simp) .refl, .inl ⟨_, _, rfl, alias_of _ _ _ rfl rfl⟩⟩

theorem exT_has_E : Has exT (.enum (.list [.str "A", .str "B"]) { alias := .str "p.T.E", extra := [("name", .str "e")] })
    "p.T" "E" :=
  ⟨.field (t := exS) (by simp) (.field (List.mem_singleton.mpr rfl) .refl), .inr ⟨_, _, rfl, alias_of _ _ _ rfl rfl⟩⟩

theorem exT_reached : Reached exT "p" "p.T" :=
  .nested (q := "p") (n := "T") .root .refl (alias_of _ _ _ rfl rfl)

theorem exT_has_T : Has exT exT "p" "T" := ⟨.refl, .inl ⟨_, _, rfl, alias_of _ _ _ rfl rfl⟩⟩

/-! ## Numbers -/

/-- **C64** Where only the last field of a struct is a union of several types, and no such union is a
member of another one, the fields of each message have different positive numbers. -/
theorem C64_numbers_partial {t : RType} {file : List Elem} (h : fromRecap t = .ok file)
    (hc : ∀ fs a, Sub (.struct fs a) t → (∀ f ∈ fs.dropLast, ¬ Choice f) ∧
      ∀ ts b, fs.getLast? = some (.union ts b) → ∀ u ∈ ts, ¬ Choice u)
    {n : String} {es : List Elem} (hw : Within (.message n es) file) :
    (numbersAll es).Nodup ∧ ∀ x ∈ numbersAll es, 1 ≤ x := by
  obtain ⟨q, ⟨fs, a, n', es', rest, h1, -, h2, h3, h4⟩ | ⟨_, _, _, _, _, _, _, h3⟩⟩ := file_made h hw ⟨n, rfl⟩
  · cases h3
    rw [numbersAll_append, numbersAll_named h4, List.append_nil]
    obtain ⟨h5, h6⟩ := hc fs a h1
    exact toFields_nodup h2 h5 h6
  · cases h3

example : Within (.message "T" [
  .field (.str "x") 1 "int32" .none,
  .field (.str "s") 2 ".p.T.S" .none,
  .oneof (.str "o") [.field (.str "a") 3 "int32" .none, .field (.str "b") 4 "bool" .none],
  .enum "E" [(.str "A", 0), (.str "B", 1)],
  .message "S" [.field (.str "e") 1 ".p.T.E" .none]]) exFile := .here (by simp [exFile])

example : ∀ fs a, Sub (.struct fs a) exT → (∀ f ∈ fs.dropLast, ¬ Choice f) ∧
    ∀ ts b, fs.getLast? = some (.union ts b) → ∀ u ∈ ts, ¬ Choice u := by
  intro fs a hs
  have hcases : fs = [int32 "x", exS,
      .union [.null {}, int32 "a", .bool { extra := [("name", .str "b")] }] { extra := [("name", .str "o")] }] ∨
      fs = [.enum (.list [.str "A", .str "B"]) { alias := .str "p.T.E", extra := [("name", .str "e")] }] := by
    unfold exT at hs
    cases hs with
    | refl => exact .inl rfl
    | field hm hs =>
      simp only [List.mem_cons, List.not_mem_nil, or_false] at hm
      rcases hm with rfl | rfl | rfl
      · cases hs
      · cases hs with
        | refl => exact .inr rfl
        | field hm hs => simp at hm; subst hm; cases hs
      · cases hs with
        | member hm hs =>
          simp only [List.mem_cons, List.not_mem_nil, or_false] at hm
          rcases hm with rfl | rfl | rfl <;> cases hs
  rcases hcases with rfl | rfl
  · refine ⟨?_, ?_⟩
    · rintro f hf ⟨ts, b, rfl, -⟩
      simp [int32, exS] at hf
    · rintro ts b hl u hu ⟨ts', b', rfl, -⟩
      simp at hl
      obtain ⟨rfl, rfl⟩ := hl
      simp [int32] at hu
  · refine ⟨by simp, ?_⟩
    rintro ts b hl
    simp at hl

/-- **C64 is false**: the field after a oneof with several members has the number of one of them. -/
theorem C64_numbers_refuted : ∃ t file n es, fromRecap t = .ok file ∧ Within (.message n es) file ∧
    ¬ (numbersAll es).Nodup :=
  ⟨.struct [.union [int32 "a", int32 "b"] { extra := [("name", .str "o")] }, int32 "c"] { alias := .str "p.T" },
    [.package "p", .message "T" [.oneof (.str "o") [.field (.str "a") 1 "int32" .none, .field (.str "b") 2 "int32" .none],
      .field (.str "c") 2 "int32" .none]], "T", _, rfl, .here (by simp; rfl), by decide⟩

/-! ## Fields -/

/-- The fields of a declared struct. -/
theorem fields_of {t : RType} {file : List Elem} {p q n : String} {fs : List RType} {a : Attrs}
    (h : fromRecap t = .ok file) (hp : .package p ∈ file) (hu : Has t (.struct fs a) q n) (hr : Reached t p q) :
    ∃ es rest, Declares file (q ++ "." ++ n) (.message n (es ++ rest)) ∧ toFields 1 fs = .ok es ∧
      (∀ x ∈ rest, ∃ m, Spec.nameOf x = some m) := by
  rcases declared_of_reached h hp hu hr with ⟨fs', a', es, rest, h1, h2, h3, h4⟩ | ⟨_, _, _, h1, _⟩
  · cases h1
    exact ⟨es, rest, h4, h2, h3⟩
  · cases h1

theorem toFields_at {fs : List RType} {n : Int} {es : List Elem} (h : toFields n fs = .ok es) {i : Nat} {f : RType}
    (hf : fs[i]? = some f) : ∃ e, es[i]? = some e ∧ toField (n + i) f = .ok e := by
  obtain ⟨h1, h2⟩ := toFields_get h
  have hi : i < es.length := by
    rw [h1]
    exact (List.getElem?_eq_some_iff.mp hf).1
  obtain ⟨f', h3, h4⟩ := h2 i es[i] (List.getElem?_eq_getElem hi)
  rw [hf] at h3
  cases h3
  exact ⟨_, List.getElem?_eq_getElem hi, h4⟩

/-- A field of a declared struct. -/
theorem field_of {t : RType} {file : List Elem} {p q n : String} {fs : List RType} {a : Attrs}
    (h : fromRecap t = .ok file) (hp : .package p ∈ file) (hu : Has t (.struct fs a) q n) (hr : Reached t p q) :
    ∃ es, Declares file (q ++ "." ++ n) (.message n es) ∧ ∀ (i : Nat) f, fs[i]? = some f →
      ∃ e, es[i]? = some e ∧ toField (i + 1) f = .ok e := by
  obtain ⟨es, rest, h1, h2, -⟩ := fields_of h hp hu hr
  refine ⟨_, h1, fun i f hf => ?_⟩
  obtain ⟨e, h3, h4⟩ := toFields_at h2 hf
  refine ⟨e, ?_, by rw [Int.add_comm]; exact h4⟩
  rw [List.getElem?_append_left (List.getElem?_eq_some_iff.mp h3).1]
  exact h3

theorem toField_label {f : RType} {n : Int} {e : Elem} (h : toField n f = .ok e) (hl : Labelled f) :
    label e = some (nameOf f.attrs n) := by
  cases f
  case list => exact hl.elim
  case map =>
    simp only [toField] at h
    obtain ⟨_, _, h⟩ := ok_bind h
    obtain ⟨_, _, h⟩ := ok_bind h
    obtain ⟨_, _, h⟩ := ok_bind h
    obtain ⟨_, _, h⟩ := ok_bind h
    cases h
    rfl
  case union ts a =>
    obtain ⟨es, h1, ⟨x, rfl, -⟩ | ⟨rfl, -⟩⟩ := toField_union h
    · have := toMembers_length h1
      simp only [Labelled] at hl
      exact absurd this.symm hl
    · rfl
  all_goals
    simp only [toField] at h
    obtain ⟨_, _, h⟩ := ok_bind h
    cases h
    rfl

/-- **C100** The message for a struct has, at the position of every field of the struct that is neither a
list nor optional, an element with the name of the field. -/
theorem C100_names_partial {t : RType} {file : List Elem} {p q n : String} {fs : List RType} {a : Attrs}
    (h : fromRecap t = .ok file) (hp : .package p ∈ file) (hu : Has t (.struct fs a) q n) (hr : Reached t p q) :
    ∃ es, Declares file (q ++ "." ++ n) (.message n es) ∧ ∀ (i : Nat) f x, fs[i]? = some f → Labelled f →
      Dict.get? f.attrs.extra "name" = some x → ∃ e, es[i]? = some e ∧ label e = some x := by
  obtain ⟨es, h1, h2⟩ := field_of h hp hu hr
  refine ⟨es, h1, fun i f x hf hl hx => ?_⟩
  obtain ⟨e, h3, h4⟩ := h2 i f hf
  refine ⟨e, h3, ?_⟩
  rw [toField_label h4 hl]
  simp [nameOf, Dict.getD, hx]

example : Labelled (int32 "x") ∧ Dict.get? (int32 "x").attrs.extra "name" = some (.str "x") := ⟨trivial, rfl⟩

/-- **C100 is false**: an optional field loses its name.  Where the type in it has no name of its own,
the field gets a name made from its number. -/
theorem C100_optional_refuted {t : RType} {file : List Elem} {p q n : String} {fs : List RType} {a : Attrs}
    (h : fromRecap t = .ok file) (hp : .package p ∈ file) (hu : Has t (.struct fs a) q n) (hr : Reached t p q)
    {i : Nat} {u : RType} {b c : Attrs} (hf : fs[i]? = some (.union [.null b, u] c)) (hpl : Plain u)
    (hn : u.isNull = false) (hx : Dict.get? u.attrs.extra "name" = .none) :
    ∃ es e, Declares file (q ++ "." ++ n) (.message n es) ∧ es[i]? = some e ∧
      label e = some (.str ("field_" ++ toString (i + 1 : Int))) := by
  obtain ⟨es, h1, h2⟩ := field_of h hp hu hr
  obtain ⟨e, h3, h4⟩ := h2 i _ hf
  refine ⟨es, e, h1, h3, ?_⟩
  have hn' : (RType.null b).isNull = true := rfl
  obtain ⟨es', h5, ⟨x, rfl, h6⟩ | ⟨-, h6⟩⟩ := toField_union h4
  · simp only [toMembers, hn', hn, if_true] at h5
    obtain ⟨y, h7, h8⟩ := ok_bind h5
    cases h8
    have hl : Labelled u := by cases u <;> first | trivial | exact hpl.elim
    have := toField_label h7 hl
    obtain ⟨nm, k, ty, c', rfl, rfl⟩ := setCard_ok h6
    simp only [label] at this ⊢
    rw [this]
    simp [nameOf, Dict.getD, hx]
  · have := toMembers_length h5
    simp [members, hn', hn] at this
    exact absurd this h6

/-- A required field and an optional field. -/
def exOptional : RType :=
  .struct [int32 "x", .union [.null {}, .bool {}] { extra := [("name", .str "b"), ("default", .none)] }]
    { alias := .str "p.T" }

example : fromRecap exOptional = .ok [.package "p", .message "T" [.field (.str "x") 1 "int32" .none,
    .field (.str "field_2") 2 "bool" (some .optional)]] := by rfl

example : Has exOptional exOptional "p" "T" ∧ Reached exOptional "p" "p" :=
  ⟨⟨.refl, .inl ⟨_, _, rfl, alias_of _ _ _ rfl rfl⟩⟩, .root⟩

/-! ## Integers -/

/-- **C104** Each value of an integer field of a struct is a value of the type that is written for the
field. -/
theorem C104_integers {t : RType} {file : List Elem} {p q n : String} {fs : List RType} {a : Attrs}
    (h : fromRecap t = .ok file) (hp : .package p ∈ file) (hu : Has t (.struct fs a) q n) (hr : Reached t p q) :
    ∃ es, Declares file (q ++ "." ++ n) (.message n es) ∧ ∀ (i bits : Nat) signed c,
      fs[i]? = some (.int (.int bits) (.bool signed) c) → ∃ name ty,
        es[i]? = some (.field name (i + 1) ty .none) ∧ ∀ x, Fits bits signed x → Value ty x := by
  obtain ⟨es, h1, h2⟩ := field_of h hp hu hr
  refine ⟨es, h1, fun i bits signed c hf => ?_⟩
  obtain ⟨e, h3, h4⟩ := h2 i _ hf
  simp only [toField] at h4
  obtain ⟨ty, h5, h4⟩ := ok_bind h4
  cases h4
  refine ⟨_, ty, h3, fun x hx => ?_⟩
  simp only [scalarOf, Avro.asInt] at h5
  unfold Fits at hx
  have hpow : ∀ m : Nat, bits ≤ m → (2 : Int) ^ bits ≤ 2 ^ m := fun m hm => by
    have := Nat.pow_le_pow_right (n := 2) (by omega) hm
    exact_mod_cast this
  unfold Value
  split at h5
  · rename_i hb
    have := hpow 32 (by omega)
    cases signed
    · cases h5
      simp at hx
      exact .inr (.inr (.inl ⟨rfl, hx.1, by omega⟩))
    · cases h5
      simp at hx
      exact .inl ⟨rfl, by omega, by omega⟩
  · split at h5
    · have := hpow 64 (by omega)
      cases signed
      · cases h5
        simp at hx
        exact .inr (.inr (.inr ⟨rfl, hx.1, by omega⟩))
      · cases h5
        simp at hx
        exact .inr (.inl ⟨rfl, by omega, by omega⟩)
    · cases h5

example : Fits 32 true (-2147483648) ∧ ¬ Fits 32 true 2147483648 := by simp [Fits]

/-! ## Declarations -/

/-- **C101** Each struct and enum whose package is the root package, or the full name of a struct that is
itself declared, is declared under its alias: a struct as a message, an enum as an enum. -/
theorem C101_declared_partial {t : RType} {file : List Elem} {p q n : String} {u : RType}
    (h : fromRecap t = .ok file) (hp : .package p ∈ file) (hu : Has t u q n) (hr : Reached t p q) :
    ∃ e, Declares file (q ++ "." ++ n) e ∧
      (((∃ fs a, u = .struct fs a) ∧ ∃ es, e = .message n es) ∨
       ((∃ symbols a, u = .enum symbols a) ∧ ∃ values, e = .enum n values)) := by
  rcases declared_of_reached h hp hu hr with ⟨fs, a, es, rest, rfl, -, -, h1⟩ | ⟨s, a, xs, rfl, -, h1⟩
  · exact ⟨_, h1, .inl ⟨⟨_, _, rfl⟩, _, rfl⟩⟩
  · exact ⟨_, h1, .inr ⟨⟨_, _, rfl⟩, _, rfl⟩⟩

example : fromRecap exT = .ok exFile ∧ .package "p" ∈ exFile ∧ Has exT exS "p.T" "S" ∧ Reached exT "p" "p.T" :=
  ⟨rfl, by simp [exFile], exT_has_S, exT_reached⟩

/-- **C101** Nothing else is declared: the full name of each message is the alias of a struct, that of each
enum is the alias of an enum. -/
theorem C101_only {t : RType} {file : List Elem} {s : String} {e : Elem} (h : fromRecap t = .ok file)
    (hd : Declares file s e) : ∃ u, Sub u t ∧ u.attrs.alias = .str s ∧
      (((∃ fs a, u = .struct fs a) ∧ ∃ n es, e = .message n es) ∨
       ((∃ symbols a, u = .enum symbols a) ∧ ∃ n values, e = .enum n values)) := by
  obtain ⟨q, n, rfl, h1, ⟨fs, a, n', es, rest, h2, h3, -, rfl, -⟩ | ⟨s, a, n', xs, h2, h3, -, rfl⟩⟩ := declares_made h hd
  · cases h1
    exact ⟨_, h2, h3.1, .inl ⟨⟨_, _, rfl⟩, _, _, rfl⟩⟩
  · cases h1
    exact ⟨_, h2, h3.1, .inr ⟨⟨_, _, rfl⟩, _, _, rfl⟩⟩

example : Declares exFile "p.T.S" (.message "S" [.field (.str "e") 1 ".p.T.E" .none]) :=
  have h : Declares exFile "p.T" (exFile[1]) := .top (p := "p") (n := "T") (by simp [exFile]) (by simp [exFile]) rfl
  .nested (q := "p.T") (m := "S") h (by simp) rfl

/-- A struct in `p` with a field whose type is in `px`: a different package with the same beginning. -/
def exPrefix : RType :=
  .struct [.struct [int32 "x"] { alias := .str "px.S", extra := [("name", .str "s")] }] { alias := .str "p.T" }

/-- **C101 is false**: a struct in a package whose name only begins like that of the root package is
dropped without an error. -/
theorem C101_dropped_refuted : ∃ t file u q n, fromRecap t = .ok file ∧ Has t u q n ∧
    ¬ ∃ e, Declares file (q ++ "." ++ n) e := by
  refine ⟨exPrefix, [.package "p", .message "T" [.field (.str "s") 1 ".px.S" .none]], _, "px", "S", rfl,
    ⟨.field (List.mem_singleton.mpr rfl) .refl, .inl ⟨_, _, rfl, alias_of _ _ _ rfl rfl⟩⟩, ?_⟩
  have key : ∀ s e, Declares [.package "p", .message "T" [.field (.str "s") 1 ".px.S" .none]] s e →
      s = "p.T" ∧ e = .message "T" [.field (.str "s") 1 ".px.S" .none] := by
    intro s e hd
    induction hd with
    | top hp he hn =>
      simp at hp he
      subst hp
      rcases he with rfl | rfl
      · cases hn
      · cases hn; exact ⟨rfl, rfl⟩
    | nested _ he hn ih =>
      obtain ⟨-, h⟩ := ih
      cases h
      simp at he
      subst he
      cases hn
  rintro ⟨e, hd⟩
  have := (key _ _ hd).1
  exact absurd this (by decide)

/-- **C101 is false**: a struct that is used twice is declared twice. -/
theorem C101_twice_refuted : ∃ t es, fromRecap t = .ok [.package "p", .message "S" es, .message "S" es,
    .message "T" [.field (.str "a") 1 ".p.S" .none, .field (.str "b") 2 ".p.S" .none]] :=
  ⟨.struct [.struct [int32 "x"] { alias := .str "p.S", extra := [("name", .str "a")] },
      .struct [int32 "x"] { alias := .str "p.S", extra := [("name", .str "b")] }] { alias := .str "p.T" },
    [.field (.str "x") 1 "int32" .none], rfl⟩

/-! ## Enums -/

theorem numbered_spec {xs : List PyVal} {n : Int} : (numbered n xs).map (·.1) = xs ∧
    ∀ (i : Nat) v, (numbered n xs)[i]? = some v → v.2 = n + i := by
  induction xs generalizing n with
  | nil => simp [numbered]
  | cons x xs ih =>
    obtain ⟨h1, h2⟩ := ih (n := n + 1)
    refine ⟨by simp [numbered, h1], fun i v hv => ?_⟩
    cases i with
    | zero => simp [numbered] at hv; subst hv; simp
    | succ i =>
      have := h2 i v (by simpa [numbered] using hv)
      rw [this]
      omega

/-- **C103** Each enum in a file has the symbols of an enum of the type, in order and numbered from zero. -/
theorem C103_enums {t : RType} {file : List Elem} {n : String} {values : List (PyVal × Int)}
    (h : fromRecap t = .ok file) (hw : Within (.enum n values) file) :
    (∃ symbols a p, Sub (.enum symbols a) t ∧ Alias a p n ∧ symbols.iter = .ok (values.map (·.1))) ∧
      ∀ (i : Nat) v, values[i]? = some v → v.2 = i := by
  obtain ⟨q, ⟨_, _, _, _, _, _, _, _, h3, _⟩ | ⟨s, a, n', xs, h1, h2, h3, h4⟩⟩ := file_made h hw ⟨n, rfl⟩
  · cases h3
  · cases h4
    obtain ⟨h5, h6⟩ := numbered_spec (xs := xs) (n := 0)
    refine ⟨⟨s, a, q, h1, h2, by rw [h5, h3]⟩, fun i v hv => ?_⟩
    rw [h6 i v hv]
    omega

example : Within (.enum "E" [(.str "A", 0), (.str "B", 1)]) exFile :=
  .inside (List.mem_cons_of_mem _ (List.mem_singleton.mpr rfl)) (.here (by simp))

/-! ## References -/

/-- **C108** Each type that a field of a message has is a type of Protobuf or the full name of a declaration,
if every reference is to a struct or an enum of the type, and their packages are reached. -/
theorem C108_types_partial {t : RType} {file : List Elem} {p n : String} {es : List Elem}
    (h : fromRecap t = .ok file) (hp : .package p ∈ file) (hr : AllReached t p)
    (href : ∀ r a, Sub (.proxy r a) t → ∃ u q m, Has t u q m ∧ a.alias = .str (q ++ "." ++ m))
    (hw : Within (.message n es) file) {s : String} (hs : s ∈ typesAll es) :
    Builtin s ∨ ∃ x e, s = "." ++ x ∧ Declares file x e := by
  obtain ⟨q, ⟨fs, a, n', es', rest, h1, -, h2, h3, h4⟩ | ⟨_, _, _, _, _, _, _, h3⟩⟩ := file_made h hw ⟨n, rfl⟩
  case inr => cases h3
  cases h3
  rw [typesAll_append, typesAll_named h4, List.append_nil] at hs
  rcases toFields_types h2 s hs with hb | ⟨x, rfl, f, hf, u, hu, hua, hk⟩
  · exact .inl hb
  refine .inr ⟨x, ?_⟩
  have htr : ∀ {u v w : RType}, Sub u v → Sub v w → Sub u w := by
    intro u v w h1 h2
    induction h2 with
    | refl => exact h1
    | list _ ih => exact .list ih
    | key _ ih => exact .key ih
    | value _ ih => exact .value ih
    | field hm _ ih => exact .field hm ih
    | member hm _ ih => exact .member hm ih
  have hut : Sub u t := htr (.field hf hu) h1
  have done : ∀ u q m, Has t u q m → ∃ e, Declares file (q ++ "." ++ m) e := fun u q m hu => by
    obtain ⟨e, he, -⟩ := C101_declared_partial h hp hu (hr u q m hu)
    exact ⟨e, he⟩
  obtain ⟨st, _, _, _, hg, -⟩ := fromRecap_ok h
  obtain ⟨_, _, hg'⟩ := gather_sub hut hg
  rcases hk with ⟨fs', a', rfl⟩ | ⟨ss, a', rfl⟩ | ⟨r, a', rfl⟩
  · obtain ⟨p', m', _, ha, -⟩ := gather_struct hg'
    have : x = p' ++ "." ++ m' := by
      have := ha.1
      simp only [RType.attrs] at hua
      rw [hua] at this
      cases this
      rfl
    obtain ⟨e, he⟩ := done _ _ _ ⟨hut, .inl ⟨_, _, rfl, ha⟩⟩
    exact ⟨e, rfl, this ▸ he⟩
  · obtain ⟨p', m', _, ha, -⟩ := gather_enum hg'
    have : x = p' ++ "." ++ m' := by
      have := ha.1
      simp only [RType.attrs] at hua
      rw [hua] at this
      cases this
      rfl
    obtain ⟨e, he⟩ := done _ _ _ ⟨hut, .inr ⟨_, _, rfl, ha⟩⟩
    exact ⟨e, rfl, this ▸ he⟩
  · obtain ⟨v, q', m', hv, ha⟩ := href r a' hut
    have : x = q' ++ "." ++ m' := by
      simp only [RType.attrs] at hua
      rw [hua] at ha
      cases ha
      rfl
    obtain ⟨e, he⟩ := done _ _ _ hv
    exact ⟨e, rfl, this ▸ he⟩

/-- A struct with a reference to itself. -/
def exLoop : RType :=
  .struct [int32 "x", .proxy .none { alias := .str "p.T", extra := [("name", .str "next")] }] { alias := .str "p.T" }

theorem exLoop_sub {u : RType} (h : Sub u exLoop) : u = exLoop ∨ u = int32 "x" ∨
    u = .proxy .none { alias := .str "p.T", extra := [("name", .str "next")] } := by
  unfold exLoop at h
  cases h with
  | refl => exact .inl rfl
  | field hm hs =>
    simp only [List.mem_cons, List.not_mem_nil, or_false] at hm
    rcases hm with rfl | rfl
    · cases hs; exact .inr (.inl rfl)
    · cases hs; exact .inr (.inr rfl)

example : fromRecap exLoop = .ok [.package "p", .message "T" [.field (.str "x") 1 "int32" .none,
    .field (.str "next") 2 ".p.T" .none]] := by rfl

example : AllReached exLoop "p" ∧
    ∀ r a, Sub (.proxy r a) exLoop → ∃ u q m, Has exLoop u q m ∧ a.alias = .str (q ++ "." ++ m) := by
  have ha : Alias ({ alias := .str "p.T" } : Attrs) "p" "T" := alias_of _ _ _ rfl rfl
  refine ⟨?_, ?_⟩
  · rintro u q n ⟨hs, ⟨fs, a, rfl, h⟩ | ⟨ss, a, rfl, -⟩⟩
    · rcases exLoop_sub hs with h1 | h1 | h1 <;> cases h1
      obtain ⟨rfl, rfl⟩ := alias_unique h ha
      exact .root
    · rcases exLoop_sub hs with h1 | h1 | h1 <;> cases h1
  · intro r a hs
    rcases exLoop_sub hs with h1 | h1 | h1 <;> cases h1
    exact ⟨exLoop, "p", "T", ⟨.refl, .inl ⟨_, _, rfl, ha⟩⟩, rfl⟩

/-- **C108 is false**: a reference to one of the types that every registry has, such as `int32`, is written
as a type that is not declared. -/
theorem C108_types_refuted : ∃ t es, fromRecap t = .ok [.package "p", .message "T" es] ∧
    ".int32" ∈ typesAll es ∧ ¬ Builtin ".int32" ∧ ∀ e, ¬ Declares [.package "p", .message "T" es] "int32" e := by
  refine ⟨.struct [.proxy .none { alias := .str "int32", extra := [("name", .str "x")] }] { alias := .str "p.T" },
    [.field (.str "x") 1 ".int32" .none], rfl, by decide, by simp [Builtin], ?_⟩
  intro e hd
  generalize hs : "int32" = s at hd
  have hdot : '.' ∈ s.toList := by
    cases hd with
    | top => simp
    | nested => simp
  subst hs
  exact absurd hdot (by decide)

/-! ## Lists and maps -/

/-- What is written for a struct depends on its field only through what is written for the field. -/
theorem fromRecap_congr {f g : RType} (a : Attrs) (h1 : ∀ n, toField n f = toField n g)
    (h2 : ∀ st, gather f st = gather g st) : fromRecap (.struct [f] a) = fromRecap (.struct [g] a) := by
  have : gather (.struct [f] a) [] = gather (.struct [g] a) [] := by
    simp only [gather, gatherFields, h1, h2]
  unfold fromRecap
  rw [this]
  rfl

theorem setCard_setCard (c d : Card) (e : Elem) : (setCard c e >>= setCard d) = setCard d e := by
  cases e <;> rfl

/-- **C106 is false**: for a list of lists, what is written is what is written for the inner list; so also
for an optional list and the optional type of its elements, and for a map to lists and the map to their
elements. -/
theorem C106_nested_refuted (u k : RType) (a b c d : Attrs) (l w l' w' : PyVal) (hn : u.isNull = false) :
    fromRecap (.struct [.list (.list u l w b) l' w' c] a) = fromRecap (.struct [.list u l w b] a) ∧
    fromRecap (.struct [.union [.null d, .list u l w b] c] a) = fromRecap (.struct [.union [.null d, u] c] a) ∧
    fromRecap (.struct [.map k (.list u l w b) c] a) = fromRecap (.struct [.map k u c] a) := by
  have hd : (RType.null d).isNull = true := rfl
  have hl : (RType.list u l w b).isNull = false := rfl
  refine ⟨fromRecap_congr a (fun n => ?_) (fun st => by simp only [gather]),
    fromRecap_congr a (fun n => ?_) (fun st => by simp only [gather, gatherAll]),
    fromRecap_congr a (fun n => ?_) (fun st => by simp only [gather])⟩
  · simp only [toField]
    cases toField n u with
    | error => rfl
    | ok e => exact setCard_setCard _ _ e
  · simp only [toField, toMembers, hd, hl, hn, if_true]
    cases toField n u with
    | error => rfl
    | ok e => cases e <;> rfl
  · simp only [toField]
    cases toField 0 k with
    | error => rfl
    | ok ek =>
      cases toField 0 u with
      | error => rfl
      | ok e => cases e <;> cases ek <;> rfl

example : fromRecap (.struct [.list (.list (.bool {}) .none (.bool true) {}) .none (.bool true) {}] { alias := .str "p.T" }) =
    .ok [.package "p", .message "T" [.field (.str "field_1") 1 "bool" (some .repeated)]] := by rfl

/-- **C106** A list of maps and a list of unions of several types are refused. -/
theorem C106_refused_partial {t : RType} {fs : List RType} {a : Attrs} {u : RType} {l w : PyVal} {b : Attrs}
    (hs : Sub (.struct fs a) t) (hf : .list u l w b ∈ fs) (hu : Choice u ∨ ∃ k v c, u = .map k v c) (file : List Elem) :
    fromRecap t ≠ .ok file := by
  intro h
  obtain ⟨st, _, _, _, hg, -⟩ := fromRecap_ok h
  obtain ⟨_, _, hg'⟩ := gather_sub hs hg
  obtain ⟨_, _, es, -, h1⟩ := gather_struct hg'
  obtain ⟨i, hi⟩ := List.getElem?_of_mem hf
  obtain ⟨e, -, h2⟩ := toFields_at h1 hi
  simp only [toField] at h2
  obtain ⟨x, h3, h4⟩ := ok_bind h2
  obtain ⟨nm, k, ty, c, rfl, rfl⟩ := setCard_ok h4
  rcases hu with ⟨ts, c, rfl, hl⟩ | ⟨k, v, c, rfl⟩
  · obtain ⟨es', h5, ⟨x, rfl, -⟩ | ⟨h6, -⟩⟩ := toField_union h3
    · have := toMembers_length h5
      simp at this
      omega
    · cases h6
  · simp only [toField] at h3
    obtain ⟨_, _, h⟩ := ok_bind h3
    obtain ⟨_, _, h⟩ := ok_bind h
    obtain ⟨_, _, h⟩ := ok_bind h
    obtain ⟨_, _, h⟩ := ok_bind h
    cases h

example : Choice (.union [.bool {}, int32 "x"] {}) := ⟨_, _, rfl, by decide⟩

end Recap.Protobuf
