import Verif.ProtobufRoundSpec
import Verif.ProtobufWriteThms

/-!
# The fields of the messages that are written

Properties C120, C121.
-/

set_option autoImplicit false

namespace Recap.Protobuf

namespace Spec

/-! ## C120 -/

/-- `TypeOf t s`: the Protobuf type with the name `s` holds the values of `t`, which is not a list, a map or a union. -/
inductive TypeOf : RType → String → Prop
  | null {a} : TypeOf (.null a) "google.protobuf.NullValue"
  | bool {a} : TypeOf (.bool a) "bool"
  | int {b signed a s} : s ∈ ["int32", "int64", "uint32", "uint64"] →
      (∀ bits : Nat, b = .int bits → ∀ x, Fits bits signed x → Value s x) → TypeOf (.int b (.bool signed) a) s
  | float {b a} : (∀ bits : Nat, b = .int bits → bits ≤ 32) → TypeOf (.float b a) "float"
  | double {b a} : (∀ bits : Nat, b = .int bits → bits ≤ 64) → TypeOf (.float b a) "double"
  | string {b v a} : TypeOf (.string b v a) "string"
  | bytes {b v a} : TypeOf (.bytes b v a) "bytes"
  | struct {fs a s} : a.alias = .str s → TypeOf (.struct fs a) ("." ++ s)
  | enum {xs a s} : a.alias = .str s → TypeOf (.enum xs a) ("." ++ s)
  | reference {r a s} : a.alias = .str s → TypeOf (.proxy r a) ("." ++ s)

/-- A member of a oneof for a type: a field without a cardinality. -/
inductive Member : RType → Elem → Prop
  | mk {t name k s} : TypeOf t s → Member t (.field name k s .none)

/-- `Written f e`: the element `e` of a message says what the field `f` of a struct says. -/
inductive Written : RType → Elem → Prop
  | one {f name k s} : Plain f → TypeOf f s → Written f (.field name k s .none)
  | list {u l w a name k s} : TypeOf u s → Written (.list u l w a) (.field name k s (some .repeated))
  | map {t u a name k s s'} : TypeOf t s → TypeOf u s' → Written (.map t u a) (.mapField name k s s')
  | optional {ts a u name k s} : members ts = [u] → TypeOf u s → Written (.union ts a) (.field name k s (some .optional))
  | oneof {ts a name es} : 2 ≤ (members ts).length → Each Member (members ts) es →
      Written (.union ts a) (.oneof name es)

/-- The nesting of types that Protobuf has. -/
def Nestable : RType → Prop
  | .list u _ _ _ => Plain u
  | .map k u _ => Plain k ∧ Plain u
  | .union ts _ => members ts ≠ [] ∧ ∀ t ∈ members ts, Plain t
  | _ => True

/-! ## C121 -/

/-- What the language of Protobuf asks of an element of a message: the keys of maps are integers, booleans or strings;
oneofs are not empty, and their elements are fields without a cardinality. -/
def Lawful : Elem → Prop
  | .mapField _ _ key _ => key ∈ ["int32", "int64", "uint32", "uint64", "bool", "string"]
  | .oneof _ es => es ≠ [] ∧ ∀ e ∈ es, ∃ name k s, e = .field name k s .none
  | _ => True

/-- The types that are written as the type of such a key. -/
inductive KeyLike : RType → Prop
  | bool {a} : KeyLike (.bool a)
  | int {b s a} : KeyLike (.int b s a)
  | string {b v a} : KeyLike (.string b v a)
  | list {u l w a} : KeyLike u → KeyLike (.list u l w a)
  | optional {ts a u} : members ts = [u] → KeyLike u → KeyLike (.union ts a)

/-- The fields of structs for which such elements are written. -/
def Allowed : RType → Prop
  | .map k _ _ => KeyLike k
  | .union ts _ => (members ts).length = 1 ∨ (members ts ≠ [] ∧ ∀ t ∈ members ts, Plain t)
  | _ => True

end Spec

open Recap.Protobuf.Spec Recap.Spec

/-! ## Fields -/

theorem scalarOf_type {t : RType} {s : String} (h : scalarOf t = .ok s) : TypeOf t s := by
  cases t
  case null => cases h; exact .null
  case bool => cases h; exact .bool
  case int b sg a =>
    simp only [scalarOf] at h
    split at h
    · rename_i bits signed hb
      have key : ∀ (ty : String) (w : Nat), bits ≤ w → (ty = if signed then (if w = 32 then "int32" else "int64") else (if w = 32 then "uint32" else "uint64")) →
          (w = 32 ∨ w = 64) → TypeOf (.int b (.bool signed) a) ty := by
        intro ty w hw ht hw'
        refine .int (by rcases hw' with rfl | rfl <;> cases signed <;> simp [ht]) ?_
        rintro n rfl x hx
        simp only [Avro.asInt, Option.some.injEq] at hb
        subst hb
        have hp : (2 : Int) ^ n ≤ 2 ^ w := by
          have := Nat.pow_le_pow_right (n := 2) (by omega) (Int.ofNat_le.mp hw)
          exact_mod_cast this
        unfold Fits at hx
        unfold Value
        rcases hw' with rfl | rfl <;> cases signed <;> simp at hx ht <;> subst ht <;> simp <;> omega
      split at h
      · rename_i hw
        cases h
        exact key _ 32 hw (by cases signed <;> rfl) (.inl rfl)
      · split at h
        · rename_i hw
          cases h
          exact key _ 64 hw (by cases signed <;> rfl) (.inr rfl)
        · cases h
    · cases h
  case float b a =>
    simp only [scalarOf] at h
    split at h
    · rename_i bits hb
      split at h
      · rename_i hw
        cases h
        refine .float ?_
        rintro n rfl
        simp only [Avro.asInt, Option.some.injEq] at hb
        omega
      · split at h
        · rename_i hw
          cases h
          refine .double ?_
          rintro n rfl
          simp only [Avro.asInt, Option.some.injEq] at hb
          omega
        · cases h
    · cases h
  case string b v a =>
    simp only [scalarOf] at h
    split at h <;> cases h
    exact .string
  case bytes b v a =>
    simp only [scalarOf] at h
    split at h <;> cases h
    exact .bytes
  all_goals cases h

/-- A type that is not a list, a map or a union is written as a field without a cardinality. -/
theorem toField_plain {t : RType} {n : Int} {e : Elem} (hp : Plain t) (h : toField n t = .ok e) :
    ∃ name s, e = .field name n s .none ∧ TypeOf t s := by
  cases t
  case list => exact hp.elim
  case map => exact hp.elim
  case union => exact hp.elim
  case struct fs a =>
    simp only [toField] at h
    obtain ⟨s, h1, h⟩ := ok_bind h
    cases h
    obtain ⟨x, hx, rfl⟩ := pathOf_ok h1
    exact ⟨_, _, rfl, .struct hx⟩
  case enum xs a =>
    simp only [toField] at h
    obtain ⟨s, h1, h⟩ := ok_bind h
    cases h
    obtain ⟨x, hx, rfl⟩ := pathOf_ok h1
    exact ⟨_, _, rfl, .enum hx⟩
  case proxy r a =>
    simp only [toField] at h
    obtain ⟨s, h1, h⟩ := ok_bind h
    cases h
    obtain ⟨x, hx, rfl⟩ := pathOf_ok h1
    exact ⟨_, _, rfl, .reference hx⟩
  all_goals
    simp only [toField] at h
    obtain ⟨s, h1, h⟩ := ok_bind h
    cases h
    exact ⟨_, _, rfl, scalarOf_type h1⟩

theorem toMembers_each {R : RType → Elem → Prop} : ∀ {ts : List RType} {n : Int} {es : List Elem},
    toMembers n ts = .ok es → (∀ t ∈ members ts, ∀ k e, toField k t = .ok e → R t e) → Each R (members ts) es := by
  intro ts
  induction ts with
  | nil => intro n es h _; cases h; exact .nil
  | cons t ts ih =>
    intro n es h hr
    rw [toMembers] at h
    split at h
    · rename_i hn
      have : members (t :: ts) = members ts := by simp [members, hn]
      rw [this] at hr ⊢
      exact ih h hr
    · rename_i hn
      obtain ⟨e, h1, h⟩ := ok_bind h
      obtain ⟨es', h2, h⟩ := ok_bind h
      cases h
      have : members (t :: ts) = t :: members ts := by simp [members, hn]
      rw [this] at hr ⊢
      exact .cons (hr t (by simp) _ _ h1) (ih h2 (fun u hu => hr u (by simp [hu])))

theorem toMembers_single {ts : List RType} {n : Int} {e : Elem} (h : toMembers n ts = .ok [e]) :
    ∃ u ∈ ts, members ts = [u] ∧ ∃ k, toField k u = .ok e := by
  have he : Each (fun t e => t ∈ ts ∧ ∃ k, toField k t = .ok e) (members ts) [e] :=
    toMembers_each h (fun t ht k e h => ⟨(List.mem_filter.mp ht).1, k, h⟩)
  generalize hm : members ts = ms at he
  cases he with
  | cons hx hr => cases hr; exact ⟨_, hx.1, rfl, hx.2⟩

theorem toField_written {f : RType} {n : Int} {e : Elem} (hn : Nestable f) (h : toField n f = .ok e) : Written f e := by
  cases f
  case list u l w a =>
    simp only [toField] at h
    obtain ⟨e', h1, h⟩ := ok_bind h
    obtain ⟨name, s, rfl, ht⟩ := toField_plain hn h1
    cases h
    exact .list ht
  case map k u a =>
    simp only [toField] at h
    obtain ⟨e1, h1, h⟩ := ok_bind h
    obtain ⟨e2, h2, h⟩ := ok_bind h
    obtain ⟨name, s, rfl, ht⟩ := toField_plain hn.1 h1
    obtain ⟨name', s', rfl, ht'⟩ := toField_plain hn.2 h2
    cases h
    exact .map ht ht'
  case union ts a =>
    obtain ⟨hne, hpl⟩ := hn
    obtain ⟨es, h1, ⟨x, rfl, h2⟩ | ⟨rfl, h2⟩⟩ := toField_union h
    · have hl := toMembers_length h1
      have he : Each Member (members ts) [x] := toMembers_each h1 (fun t ht k e h => by
        obtain ⟨name, s, rfl, h'⟩ := toField_plain (hpl t ht) h
        exact .mk h')
      generalize hm : members ts = ms at he
      cases he with
      | cons hx hr =>
        cases hr
        cases hx with
        | mk ht => cases h2; exact .optional hm ht
    · have hl := toMembers_length h1
      refine .oneof ?_ (toMembers_each h1 (fun t ht k e h => by
        obtain ⟨name, s, rfl, h'⟩ := toField_plain (hpl t ht) h
        exact .mk h'))
      have h0 : (members ts).length ≠ 0 := fun h => hne (List.length_eq_zero_iff.mp h)
      have h3 : (members ts).length ≠ 1 := by rw [← hl]; exact h2
      omega
  all_goals
    obtain ⟨name, s, rfl, ht⟩ := toField_plain (by trivial) h
    exact .one (by trivial) ht

/-- **C120** The message for a struct has an element for each field of the struct, in order, and else only nested
messages and enums.  The element says what the field says: a field with a Protobuf type that holds the values of the
type, repeated for lists and optional for optional types, a map, or a oneof with a member for each type of a union. -/
theorem C120_written {t : RType} {file : List Elem} {p q n : String} {fs : List RType} {a : Attrs}
    (h : fromRecap t = .ok file) (hp : .package p ∈ file) (hu : Has t (.struct fs a) q n) (hr : Reached t p q) :
    ∃ es rest, Declares file (q ++ "." ++ n) (.message n (es ++ rest)) ∧ es.length = fs.length ∧
      (∀ x ∈ rest, ∃ m, Spec.nameOf x = some m) ∧
      ∀ (i : Nat) f, fs[i]? = some f → Nestable f → ∃ e, es[i]? = some e ∧ Written f e := by
  obtain ⟨es, rest, h1, h2, h3⟩ := fields_of h hp hu hr
  refine ⟨es, rest, h1, (toFields_get h2).1, h3, fun i f hf hn => ?_⟩
  obtain ⟨e, h4, h5⟩ := toFields_at h2 hf
  exact ⟨e, h4, toField_written hn h5⟩

/-- A struct with fields of all kinds. -/
def exKinds : RType := .struct [int32 "x", .list (.bool { extra := [("name", .str "l")] }) .none (.bool true) {},
  .union [.null {}, .float (.int 32) { extra := [("name", .str "o")] }] { extra := [("default", .none), ("name", .str "o")] },
  .map (.string (.int 80) (.bool true) {}) (.int (.int 64) (.bool false) {}) { extra := [("name", .str "m")] },
  .union [int32 "a", .bool { extra := [("name", .str "b")] }] { extra := [("name", .str "u")] }] { alias := .str "p.T" }

example : fromRecap exKinds = .ok [.package "p", .message "T" [.field (.str "x") 1 "int32" .none,
    .field (.str "l") 2 "bool" (some .repeated), .field (.str "o") 3 "float" (some .optional),
    .mapField (.str "m") 4 "string" "uint64",
    .oneof (.str "u") [.field (.str "a") 5 "int32" .none, .field (.str "b") 6 "bool" .none]]] ∧
    Has exKinds exKinds "p" "T" ∧ Reached exKinds "p" "p" :=
  ⟨rfl, ⟨.refl, .inl ⟨_, _, rfl, alias_of _ _ _ rfl rfl⟩⟩, .root⟩

example : ∀ fs a, exKinds = .struct fs a → ∀ f ∈ fs, Nestable f := by
  intro fs a h f hf
  cases h
  simp only [List.mem_cons, List.not_mem_nil, or_false] at hf
  rcases hf with rfl | rfl | rfl | rfl | rfl
  · trivial
  · trivial
  · exact ⟨by decide, by intro t ht; simp [members, RType.isNull] at ht; subst ht; trivial⟩
  · exact ⟨trivial, trivial⟩
  · refine ⟨by decide, ?_⟩
    intro t ht
    simp only [members, int32, RType.isNull, List.filter, List.mem_cons, List.not_mem_nil, or_false, Bool.not_false] at ht
    rcases ht with rfl | rfl <;> trivial

/-! ## Rules of the language -/

theorem typeOf_key {t : RType} {s : String} (hp : Plain t) (h : TypeOf t s) :
    s ∈ ["int32", "int64", "uint32", "uint64", "bool", "string"] ↔ KeyLike t := by
  have hdot : ∀ x : String, "." ++ x ∉ ["int32", "int64", "uint32", "uint64", "bool", "string"] := by
    intro x hm
    have : (("." ++ x).toList).head? = some '.' := by simp
    simp only [List.mem_cons, List.not_mem_nil, or_false] at hm
    rcases hm with h | h | h | h | h | h <;> rw [h] at this <;> exact absurd this (by decide)
  cases h with
  | null => exact ⟨fun h => by simp at h, fun h => by cases h⟩
  | bool => exact ⟨fun _ => .bool, fun _ => by simp⟩
  | int h => exact ⟨fun _ => .int, fun _ => by simp only [List.mem_cons, List.not_mem_nil, or_false] at h ⊢; grind⟩
  | float => exact ⟨fun h => by simp at h, fun h => by cases h⟩
  | double => exact ⟨fun h => by simp at h, fun h => by cases h⟩
  | string => exact ⟨fun _ => .string, fun _ => by simp⟩
  | bytes => exact ⟨fun h => by simp at h, fun h => by cases h⟩
  | struct => exact ⟨fun h => absurd h (hdot _), fun h => by cases h⟩
  | enum => exact ⟨fun h => absurd h (hdot _), fun h => by cases h⟩
  | reference => exact ⟨fun h => absurd h (hdot _), fun h => by cases h⟩

/-- Only types that are not lists, maps or unions are written as fields without a cardinality. -/
theorem toField_bare {t : RType} {n : Int} {e : Elem} (h : toField n t = .ok e) :
    (∃ name k s, e = .field name k s .none) ↔ Plain t := by
  constructor
  · rintro ⟨name, k, s, rfl⟩
    cases t
    case list =>
      simp only [toField] at h
      obtain ⟨e', -, h⟩ := ok_bind h
      cases e' <;> cases h
    case map =>
      simp only [toField] at h
      obtain ⟨_, _, h⟩ := ok_bind h
      obtain ⟨_, _, h⟩ := ok_bind h
      obtain ⟨_, _, h⟩ := ok_bind h
      obtain ⟨_, _, h⟩ := ok_bind h
      cases h
    case union =>
      obtain ⟨es, -, ⟨x, rfl, h2⟩ | ⟨h2, -⟩⟩ := toField_union h
      · cases x <;> cases h2
      · cases h2
    all_goals trivial
  · intro hp
    obtain ⟨name, s, rfl, -⟩ := toField_plain hp h
    exact ⟨_, _, _, rfl⟩

/-- The type of the field that is written for the key of a map. -/
theorem toField_key : ∀ (t : RType) {n : Int} {name : PyVal} {k : Int} {s : String} {card : Option Card},
    toField n t = .ok (.field name k s card) →
    (s ∈ ["int32", "int64", "uint32", "uint64", "bool", "string"] ↔ KeyLike t)
  | .list u l w a, n, name, k, s, card, h => by
    simp only [toField] at h
    obtain ⟨e', h1, h⟩ := ok_bind h
    obtain ⟨nm, k', ty, c, rfl, h2⟩ := setCard_ok h
    cases h2
    rw [toField_key u h1]
    exact ⟨.list, fun h => by cases h; assumption⟩
  | .union ts a, n, name, k, s, card, h => by
    obtain ⟨es, h1, ⟨x, rfl, h2⟩ | ⟨h2, -⟩⟩ := toField_union h
    · have hl := toMembers_length h1
      obtain ⟨nm, k', ty, c, rfl, h3⟩ := setCard_ok h2
      cases h3
      obtain ⟨u, hmem, hm, k', h5⟩ := toMembers_single h1
      have := List.sizeOf_lt_of_mem hmem
      rw [toField_key u h5]
      exact ⟨.optional hm, fun h => by
        cases h with
        | optional h h' => rw [hm] at h; cases h; exact h'⟩
    · cases h2
  | .map .., n, name, k, s, card, h => by
    simp only [toField] at h
    obtain ⟨_, _, h⟩ := ok_bind h
    obtain ⟨_, _, h⟩ := ok_bind h
    obtain ⟨_, _, h⟩ := ok_bind h
    obtain ⟨_, _, h⟩ := ok_bind h
    cases h
  | .null .., n, name, k, s, card, h => by
    obtain ⟨_, _, e, ht⟩ := toField_plain (by trivial) h
    cases e
    exact typeOf_key (by trivial) ht
  | .bool .., n, name, k, s, card, h => by
    obtain ⟨_, _, e, ht⟩ := toField_plain (by trivial) h
    cases e
    exact typeOf_key (by trivial) ht
  | .int .., n, name, k, s, card, h => by
    obtain ⟨_, _, e, ht⟩ := toField_plain (by trivial) h
    cases e
    exact typeOf_key (by trivial) ht
  | .float .., n, name, k, s, card, h => by
    obtain ⟨_, _, e, ht⟩ := toField_plain (by trivial) h
    cases e
    exact typeOf_key (by trivial) ht
  | .string .., n, name, k, s, card, h => by
    obtain ⟨_, _, e, ht⟩ := toField_plain (by trivial) h
    cases e
    exact typeOf_key (by trivial) ht
  | .bytes .., n, name, k, s, card, h => by
    obtain ⟨_, _, e, ht⟩ := toField_plain (by trivial) h
    cases e
    exact typeOf_key (by trivial) ht
  | .struct .., n, name, k, s, card, h => by
    obtain ⟨_, _, e, ht⟩ := toField_plain (by trivial) h
    cases e
    exact typeOf_key (by trivial) ht
  | .enum .., n, name, k, s, card, h => by
    obtain ⟨_, _, e, ht⟩ := toField_plain (by trivial) h
    cases e
    exact typeOf_key (by trivial) ht
  | .proxy .., n, name, k, s, card, h => by
    obtain ⟨_, _, e, ht⟩ := toField_plain (by trivial) h
    cases e
    exact typeOf_key (by trivial) ht
termination_by t => sizeOf t
decreasing_by
  all_goals simp_wf; omega

theorem Each.all {α β : Type} {R : α → β → Prop} {P : α → Prop} {Q : β → Prop} (hpq : ∀ x y, R x y → (Q y ↔ P x)) :
    ∀ {xs : List α} {ys : List β}, Each R xs ys → ((∀ y ∈ ys, Q y) ↔ ∀ x ∈ xs, P x)
  | _, _, .nil => by simp
  | _, _, .cons h hr => by
    have := Each.all hpq hr
    simp [hpq _ _ h, this]

theorem toField_lawful {f : RType} {n : Int} {e : Elem} (h : toField n f = .ok e) : Lawful e ↔ Allowed f := by
  cases f
  case list =>
    simp only [toField] at h
    obtain ⟨e', -, h⟩ := ok_bind h
    obtain ⟨_, _, _, _, rfl, rfl⟩ := setCard_ok h
    exact Iff.rfl
  case map k u a =>
    simp only [toField] at h
    obtain ⟨e1, h1, h⟩ := ok_bind h
    obtain ⟨_, _, h⟩ := ok_bind h
    obtain ⟨key, h3, h⟩ := ok_bind h
    obtain ⟨_, _, h⟩ := ok_bind h
    cases h
    cases e1 <;> cases h3
    exact toField_key _ h1
  case union ts a =>
    obtain ⟨es, h1, ⟨x, rfl, h2⟩ | ⟨rfl, h2⟩⟩ := toField_union h
    · have hl := toMembers_length h1
      obtain ⟨_, _, _, _, rfl, rfl⟩ := setCard_ok h2
      exact ⟨fun _ => .inl hl.symm, fun _ => trivial⟩
    · have hl := toMembers_length h1
      have he := toMembers_each (R := fun t e => ∃ k, toField k t = .ok e) h1 (fun t ht k e h => ⟨k, h⟩)
      have hall := Each.all (P := Plain) (Q := fun e => ∃ name k s, e = .field name k s .none)
        (fun t e ⟨k, h⟩ => toField_bare h) he
      have hne : es ≠ [] ↔ members ts ≠ [] := by
        rw [← List.length_pos_iff, ← List.length_pos_iff, hl]
      simp only [Lawful, Allowed]
      rw [hall, hne]
      exact ⟨.inr, fun h => h.resolve_left (by omega)⟩
  all_goals
    obtain ⟨name, s, rfl, -⟩ := toField_plain (by trivial) h
    exact Iff.rfl

/-- **C121** (partial, as the fields that break the rules of Protobuf are not refused): for a struct that is declared,
exactly the fields of `Allowed` are written as elements that Protobuf allows. -/
theorem C121_lawful_partial {t : RType} {file : List Elem} {p q n : String} {fs : List RType} {a : Attrs}
    (h : fromRecap t = .ok file) (hp : .package p ∈ file) (hu : Has t (.struct fs a) q n) (hr : Reached t p q) :
    ∃ es, Declares file (q ++ "." ++ n) (.message n es) ∧ ∀ (i : Nat) f, fs[i]? = some f →
      ∃ e, es[i]? = some e ∧ (Lawful e ↔ Allowed f) := by
  obtain ⟨es, h1, h2⟩ := field_of h hp hu hr
  refine ⟨es, h1, fun i f hf => ?_⟩
  obtain ⟨e, h3, h4⟩ := h2 i f hf
  exact ⟨e, h3, toField_lawful h4⟩

/-- **C121** Every message of a file is lawful if the fields of all structs are allowed. -/
theorem C121_messages_partial {t : RType} {file : List Elem} (h : fromRecap t = .ok file)
    (ha : ∀ fs a, Sub (.struct fs a) t → ∀ f ∈ fs, Allowed f) {n : String} {es : List Elem}
    (hw : Within (.message n es) file) : ∀ e ∈ es, Lawful e := by
  obtain ⟨q, ⟨fs, a, n', es', rest, h1, -, h2, h3, h4⟩ | ⟨_, _, _, _, _, _, _, h3⟩⟩ := file_made h hw ⟨n, rfl⟩
  · cases h3
    intro e he
    rcases List.mem_append.mp he with he | he
    · obtain ⟨i, hi⟩ := List.getElem?_of_mem he
      obtain ⟨f, h5, h6⟩ := (toFields_get h2).2 i e hi
      exact (toField_lawful h6).mpr (ha fs a h1 f (List.mem_of_getElem? h5))
    · obtain ⟨m, hm⟩ := h4 e he
      cases e <;> first | trivial | cases hm
  · cases h3

/-- **C121 is false**: a map whose keys are floats is written, and so are a union of a list and another type, and
a union of null alone. -/
theorem C121_lawful_refuted :
    (∃ t es, fromRecap t = .ok [.package "p", .message "T" es] ∧ .mapField (.str "m") 1 "double" "bool" ∈ es ∧
      ¬Lawful (.mapField (.str "m") 1 "double" "bool")) ∧
    (∃ t es xs, fromRecap t = .ok [.package "p", .message "T" es] ∧ .oneof (.str "u") xs ∈ es ∧
      .field (.str "l") 1 "bool" (some .repeated) ∈ xs ∧ ¬Lawful (.oneof (.str "u") xs)) ∧
    ∃ t es, fromRecap t = .ok [.package "p", .message "T" es] ∧ .oneof (.str "n") [] ∈ es ∧ ¬Lawful (.oneof (.str "n") []) := by
  refine ⟨⟨.struct [.map (.float (.int 64) {}) (.bool {}) { extra := [("name", .str "m")] }] { alias := .str "p.T" },
      [.mapField (.str "m") 1 "double" "bool"], rfl, by simp, by simp [Lawful]⟩,
    ⟨.struct [.union [.list (.bool { extra := [("name", .str "l")] }) .none (.bool true) {}, int32 "a"]
        { extra := [("name", .str "u")] }] { alias := .str "p.T" },
      [.oneof (.str "u") [.field (.str "l") 1 "bool" (some .repeated), .field (.str "a") 2 "int32" .none]], _, rfl,
      List.mem_singleton.mpr rfl, by simp, by simp [Lawful]⟩,
    ⟨.struct [.union [.null {}] { extra := [("name", .str "n")] }] { alias := .str "p.T" }, [.oneof (.str "n") []], rfl, by simp,
      by simp [Lawful]⟩⟩

example : ∀ fs a, exKinds = .struct fs a → ∀ f ∈ fs, Allowed f := by
  intro fs a h f hf
  cases h
  simp only [List.mem_cons, List.not_mem_nil, or_false] at hf
  rcases hf with rfl | rfl | rfl | rfl | rfl
  · trivial
  · trivial
  · exact .inl rfl
  · exact .string
  · refine .inr ⟨by decide, ?_⟩
    intro t ht
    simp only [members, int32, RType.isNull, List.filter, List.mem_cons, List.not_mem_nil, or_false, Bool.not_false] at ht
    rcases ht with rfl | rfl <;> trivial

end Recap.Protobuf
