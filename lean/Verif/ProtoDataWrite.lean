import Verif.ProtoDataRead

/-!
# The data of a message that is written

Lemmas for C134 and C135.
-/

set_option autoImplicit false

namespace Recap.ProtoData

open Protobuf
open Protobuf.Spec (Within label scalar Declares Has Alias members Plain Nestable AllReached Reached Each)
open Avro.Spec (IntValue)
open AvroData (HoldsIn)
open Values (Val)
open Recap.Spec (children Sub)

/-! ## Names -/

theorem scalar_dot (s : String) : Spec.scalar ("." ++ s) = .none := by
  cases hq : Spec.scalar ("." ++ s) with
  | none => rfl
  | some u =>
    have : ("." ++ s).toList.head? ≠ some '.' :=
      scalar_cases (P := fun s _ => s.toList.head? ≠ some '.') hq (by decide +kernel)
    simp at this

theorem scalar_some {s : String} {x : Val} (h : Scalar s x) : Spec.scalar s ≠ .none := by
  cases h with
  | int32 hs | int64 hs | uint32 hs | uint64 hs =>
    simp only [List.mem_cons, List.not_mem_nil, or_false] at hs
    first
    | (rcases hs with rfl | rfl | rfl <;> decide +kernel)
    | (rcases hs with rfl | rfl <;> decide +kernel)
  | _ => decide +kernel

theorem dot_inj {a b : String} (h : "." ++ a = "." ++ b) : a = b := by
  have := congrArg String.toList h
  simp only [String.toList_append] at this
  exact String.toList_inj.mp (List.append_cancel_left this)

/-- What an absolute name means does not depend on the scope. -/
theorem finds_absolute {file : List Elem} {scope scope' : List (List Elem)} {s : String} {e : Elem}
    (h : Finds file scope ("." ++ s) e scope') : Full file s e scope' := by
  generalize hq : "." ++ s = q at h
  cases h with
  | simple h => subst hq; simp at h
  | full _ h => subst hq; simp at h
  | absolute h => exact dot_inj hq ▸ h

theorem datum_absolute {file : List Elem} {scope : List (List Elem)} {s : String} {x : Val}
    (h : Datum file scope ("." ++ s) x) : ∃ e scope', Full file s e scope' ∧ Declared file scope' e x := by
  generalize hq : "." ++ s = q at h
  cases h with
  | scalar h => subst hq; exact absurd (scalar_dot s) (scalar_some h)
  | other _ hf hd => subst hq; exact ⟨_, _, finds_absolute hf, hd⟩

theorem datum_of_full {file : List Elem} {scope scope' : List (List Elem)} {s : String} {e : Elem} {x : Val}
    (h : Full file s e scope') (hd : Declared file scope' e x) : Datum file scope ("." ++ s) x :=
  .other (scalar_dot s) (.absolute h) hd

theorem datum_scope {file : List Elem} {scope scope' : List (List Elem)} {s : String} {x : Val}
    (h : Datum file scope ("." ++ s) x) : Datum file scope' ("." ++ s) x := by
  obtain ⟨e, scope'', h1, h2⟩ := datum_absolute h
  exact datum_of_full h1 h2

theorem declares_full {file : List Elem} {s : String} {e : Elem} (h : Declares file s e) : ∃ scope, Full file s e scope := by
  induction h with
  | top hp he hn => exact ⟨_, .top hp he hn⟩
  | nested _ he hn ih =>
    obtain ⟨scope, ih⟩ := ih
    exact ⟨_, .nested ih he hn⟩

theorem full_declares {file : List Elem} {s p : String} {e : Elem} {scope : List (List Elem)} (hp : .package p ∈ file)
    (h : Full file s e scope) : Declares file s e := by
  induction h with
  | top hp he hn => exact .top hp he hn
  | noPackage h => exact absurd hp (h p)
  | nested _ he hn ih => exact .nested ih he hn

/-! ## Fields -/

theorem toField_label_some {f : RType} {n : Int} {e : Elem} (h : toField n f = .ok e) : (label e).isSome := by
  have hc : ∀ {c : Card} {e e' : Elem}, setCard c e = .ok e' → (label e').isSome := by
    intro c e e' h
    cases e <;> simp [setCard] at h
    subst h
    rfl
  cases f
  case list => simp only [toField] at h; obtain ⟨_, _, h⟩ := ok_bind h; exact hc h
  case map =>
    simp only [toField] at h
    obtain ⟨_, _, h⟩ := ok_bind h
    obtain ⟨_, _, h⟩ := ok_bind h
    obtain ⟨_, _, h⟩ := ok_bind h
    obtain ⟨_, _, h⟩ := ok_bind h
    cases h; rfl
  case union =>
    obtain ⟨es, _, ⟨x, rfl, h⟩ | ⟨rfl, _⟩⟩ := toField_union h
    · exact hc h
    · rfl
  all_goals
    simp only [toField] at h
    obtain ⟨_, _, h⟩ := ok_bind h
    cases h; rfl

theorem fields_written {fs : List RType} {es rest : List Elem} (h : toFields 1 fs = .ok es)
    (hr : ∀ x ∈ rest, ∃ m, Spec.nameOf x = some m) : fields (es ++ rest) = es := by
  have h1 : ∀ e ∈ es, (label e).isSome := by
    intro e he
    obtain ⟨i, hi, rfl⟩ := List.mem_iff_getElem.mp he
    obtain ⟨f, -, h2⟩ := (toFields_get h).2 i _ (List.getElem?_eq_getElem hi)
    exact toField_label_some h2
  have h2 : ∀ e ∈ rest, ¬(label e).isSome := by
    intro e he
    obtain ⟨m, hm⟩ := hr e he
    cases e <;> simp [Spec.nameOf] at hm <;> simp [label]
  unfold fields
  rw [List.filter_append, List.filter_eq_self.mpr h1, List.filter_eq_nil_iff.mpr h2, List.append_nil]

/-! ## Types of Protobuf -/

theorem intValue_grow {a b : Nat} {s : Bool} {i : Int} (h : IntValue a s i) (hab : a ≤ b) : IntValue b s i := by
  have hp : ∀ m n : Nat, m ≤ n → (2 : Int) ^ m ≤ 2 ^ n := by
    intro m n h
    have := Nat.pow_le_pow_right (n := 2) (by omega) h
    exact_mod_cast this
  have h1 := hp a b hab
  have h2 := hp (a - 1) (b - 1) (by omega)
  unfold IntValue at *
  cases s <;> simp at h ⊢ <;> omega

/-- The types that are written as a type of Protobuf. -/
def Simple : RType → Prop
  | .null _ | .bool _ | .int .. | .float .. | .string .. | .bytes .. => True
  | _ => False

/-- The data of the Protobuf type that is written are the values as they are stored. -/
theorem scalar_stored {refs : String → Val → Prop} {t : RType} {s : String} {x : Val} (hp : Simple t)
    (h : scalarOf t = .ok s) : Scalar s x ↔ Stored refs t x := by
  cases t
  case null =>
    cases h
    constructor
    · intro h
      generalize hq : "google.protobuf.NullValue" = q at h
      cases h <;> first | exact .null | (exact absurd hq (by decide)) | (subst hq; simp_all)
    · intro h; cases h; exact .null
  case bool =>
    cases h
    constructor
    · intro h
      generalize hq : "bool" = q at h
      cases h <;> first | exact .bool | (exact absurd hq (by decide)) | (subst hq; simp_all)
    · intro h; cases h; exact .bool
  case int b sg a =>
    simp only [scalarOf] at h
    split at h
    · rename_i bits signed hb
      split at h
      · rename_i hw
        have h32 : ∀ n : Int, b = .int n → n ≤ 32 := by
          rintro n rfl
          simp only [Avro.asInt, Option.some.injEq] at hb
          omega
        have hno : ∀ n : Int, b = .int n → 32 < n → False := fun n hn h => by have := h32 n hn; omega
        constructor
        · intro hx
          cases signed
          · cases h
            generalize hq : "uint32" = q at hx
            cases hx with
            | uint32 _ hi => exact .int h32 hi
            | int32 hs => subst hq; simp at hs
            | int64 hs => subst hq; simp at hs
            | uint64 hs => subst hq; simp at hs
            | _ => exact absurd hq (by decide)
          · cases h
            generalize hq : "int32" = q at hx
            cases hx with
            | int32 _ hi => exact .int h32 hi
            | uint32 hs => subst hq; simp at hs
            | int64 hs => subst hq; simp at hs
            | uint64 hs => subst hq; simp at hs
            | _ => exact absurd hq (by decide)
        · intro hx
          cases hx with
          | int _ hi => cases signed <;> cases h <;> first | exact .uint32 (by decide) hi | exact .int32 (by decide) hi
          | long h1 => exact (hno _ rfl h1).elim
      · split at h
        · rename_i hw hw'
          have hbi : b = .int bits := by
            cases b <;> simp [Avro.asInt] at hb
            · rename_i v
              subst hb
              cases v <;> simp [boolInt] at hw
            · simp [hb]
          subst hbi
          have h1 : 32 < bits := by omega
          constructor
          · intro hx
            cases signed
            · cases h
              generalize hq : "uint64" = q at hx
              cases hx with
              | uint64 _ hi => exact .long h1 hw' hi
              | int32 hs => subst hq; simp at hs
              | int64 hs => subst hq; simp at hs
              | uint32 hs => subst hq; simp at hs
              | _ => exact absurd hq (by decide)
            · cases h
              generalize hq : "int64" = q at hx
              cases hx with
              | int64 _ hi => exact .long h1 hw' hi
              | uint32 hs => subst hq; simp at hs
              | int32 hs => subst hq; simp at hs
              | uint64 hs => subst hq; simp at hs
              | _ => exact absurd hq (by decide)
          · intro hx
            cases hx with
            | int h2 => have := h2 _ rfl; omega
            | long _ _ hi => cases signed <;> cases h <;> first | exact .uint64 (by decide) hi | exact .int64 (by decide) hi
        · cases h
    · cases h
  case float b a =>
    simp only [scalarOf] at h
    split at h
    · rename_i bits hb
      split at h
      · rename_i hw
        cases h
        have h32 : ∀ n : Int, b = .int n → n ≤ 32 := by
          rintro n rfl
          simp only [Avro.asInt, Option.some.injEq] at hb
          omega
        constructor
        · intro hx
          generalize hq : "float" = q at hx
          cases hx <;> first | (exact .float h32 (by assumption)) | (exact absurd hq (by decide)) | (subst hq; simp_all)
        · intro hx
          cases hx with
          | float _ h => exact .float h
          | double h1 => have := h32 _ rfl; omega
      · split at h
        · rename_i hw hw'
          cases h
          have hbi : b = .int bits := by
            cases b <;> simp [Avro.asInt] at hb
            · rename_i v
              subst hb
              cases v <;> simp [boolInt] at hw
            · simp [hb]
          subst hbi
          constructor
          · intro hx
            generalize hq : "double" = q at hx
            cases hx <;> first | (exact .double (by omega) hw' (by assumption)) | (exact absurd hq (by decide)) | (subst hq; simp_all)
          · intro hx
            cases hx with
            | float h1 => have := h1 _ rfl; omega
            | double _ _ h => exact .double h
        · cases h
    · cases h
  case string b v a =>
    simp only [scalarOf] at h
    split at h
    · cases h
      constructor
      · intro hx
        generalize hq : "string" = q at hx
        cases hx <;> first | (exact .string (by assumption)) | (exact absurd hq (by decide)) | (subst hq; simp_all)
      · intro hx; cases hx; exact .string (by assumption)
    · cases h
  case bytes b v a =>
    simp only [scalarOf] at h
    split at h
    · cases h
      constructor
      · intro hx
        generalize hq : "bytes" = q at hx
        cases hx <;> first | (exact .bytes (by assumption)) | (exact absurd hq (by decide)) | (subst hq; simp_all)
      · intro hx; cases hx; exact .bytes (by assumption)
    · cases h
  all_goals exact hp.elim

theorem scalar_datum {file : List Elem} {scope : List (List Elem)} {t : RType} {s : String} {x : Val} (hp : Simple t)
    (h : scalarOf t = .ok s) : Datum file scope s x ↔ Scalar s x := by
  refine ⟨fun hd => ?_, .scalar⟩
  cases hd with
  | scalar h => exact h
  | other h0 =>
    exfalso
    cases t
    case null => cases h; exact absurd h0 (by decide +kernel)
    case bool => cases h; exact absurd h0 (by decide +kernel)
    case int =>
      simp only [scalarOf] at h
      split at h
      · rename_i signed _
        split at h
        · cases signed <;> cases h <;> exact absurd h0 (by decide +kernel)
        · split at h
          · cases signed <;> cases h <;> exact absurd h0 (by decide +kernel)
          · cases h
      · cases h
    case float =>
      simp only [scalarOf] at h
      split at h
      · split at h
        · cases h; exact absurd h0 (by decide +kernel)
        · split at h
          · cases h; exact absurd h0 (by decide +kernel)
          · cases h
      · cases h
    case string =>
      simp only [scalarOf] at h
      split at h
      · cases h; exact absurd h0 (by decide +kernel)
      · cases h
    case bytes =>
      simp only [scalarOf] at h
      split at h
      · cases h; exact absurd h0 (by decide +kernel)
      · cases h
    all_goals exact hp.elim

/-! ## Fields -/

/-- The Protobuf type that is written for a type is called `s`. -/
def Writes (t : RType) (s : String) : Prop :=
  (Simple t ∧ scalarOf t = .ok s) ∨ (¬Simple t ∧ ∃ z, t.attrs.alias = .str z ∧ s = "." ++ z)

theorem toField_writes {t : RType} {n : Int} {e : Elem} (hp : Plain t) (h : toField n t = .ok e) :
    ∃ name s, e = .field name n s .none ∧ Writes t s := by
  cases t
  case list => exact hp.elim
  case map => exact hp.elim
  case union => exact hp.elim
  case struct | enum | proxy =>
    simp only [toField] at h
    obtain ⟨s, h1, h⟩ := ok_bind h
    cases h
    obtain ⟨x, hx, rfl⟩ := pathOf_ok h1
    exact ⟨_, _, rfl, .inr ⟨by simp [Simple], x, hx, rfl⟩⟩
  all_goals
    simp only [toField] at h
    obtain ⟨s, h1, h⟩ := ok_bind h
    cases h
    exact ⟨_, _, rfl, .inl ⟨by trivial, h1⟩⟩

/-- A member of a oneof. -/
def WritesMember (t : RType) (e : Elem) : Prop := Plain t ∧ ∃ name k s, e = .field name k s .none ∧ Writes t s

/-- What is written for a field. -/
inductive WritesField : RType → Elem → Prop
  | one {f name k s} : Plain f → Writes f s → WritesField f (.field name k s .none)
  | list {u l w a name k s} : Plain u → Writes u s → WritesField (.list u l w a) (.field name k s (some .repeated))
  | map {t u a name k s s'} : Plain t → Plain u → Writes t s → Writes u s' →
      WritesField (.map t u a) (.mapField name k s s')
  | optional {ts a u name k s} : members ts = [u] → Plain u → Writes u s →
      WritesField (.union ts a) (.field name k s (some .optional))
  | oneof {ts a name es} : Each WritesMember (members ts) es → WritesField (.union ts a) (.oneof name es)

theorem toField_writesField {f : RType} {n : Int} {e : Elem} (hn : Nestable f) (h : toField n f = .ok e) :
    WritesField f e := by
  cases f
  case list u l w a =>
    simp only [toField] at h
    obtain ⟨e', h1, h⟩ := ok_bind h
    obtain ⟨name, s, rfl, ht⟩ := toField_writes hn h1
    cases h
    exact .list hn ht
  case map k u a =>
    simp only [toField] at h
    obtain ⟨e1, h1, h⟩ := ok_bind h
    obtain ⟨e2, h2, h⟩ := ok_bind h
    obtain ⟨name, s, rfl, ht⟩ := toField_writes hn.1 h1
    obtain ⟨name', s', rfl, ht'⟩ := toField_writes hn.2 h2
    cases h
    exact .map hn.1 hn.2 ht ht'
  case union ts a =>
    obtain ⟨hne, hpl⟩ := hn
    obtain ⟨es, h1, h2⟩ := toField_union h
    have he : Each WritesMember (members ts) es := toMembers_each h1 (fun t ht k e h => by
      obtain ⟨name, s, rfl, h'⟩ := toField_writes (hpl t ht) h
      exact ⟨hpl t ht, _, _, _, rfl, h'⟩)
    rcases h2 with ⟨x, rfl, h2⟩ | ⟨rfl, -⟩
    · generalize hm : members ts = ms at he
      cases he with
      | cons hx hr =>
        cases hr
        obtain ⟨h3, _, _, _, rfl, h4⟩ := hx
        cases h2
        exact .optional hm h3 h4
    · exact .oneof he
  all_goals
    obtain ⟨name, s, rfl, ht⟩ := toField_writes (by trivial) h
    exact .one (by trivial) ht

theorem each_left {α β : Type} {R : α → β → Prop} {xs : List α} {ys : List β} (h : Each R xs ys) {x : α} (hx : x ∈ xs) :
    ∃ y ∈ ys, R x y := by
  induction h with
  | nil => simp at hx
  | cons hr _ ih =>
    rcases List.mem_cons.mp hx with rfl | hx
    · exact ⟨_, List.mem_cons_self, hr⟩
    · obtain ⟨y, hy, h⟩ := ih hx
      exact ⟨y, List.mem_cons_of_mem _ hy, h⟩

theorem each_right {α β : Type} {R : α → β → Prop} {xs : List α} {ys : List β} (h : Each R xs ys) {y : β} (hy : y ∈ ys) :
    ∃ x ∈ xs, R x y := by
  induction h with
  | nil => simp at hy
  | cons hr _ ih =>
    rcases List.mem_cons.mp hy with rfl | hy
    · exact ⟨_, List.mem_cons_self, hr⟩
    · obtain ⟨x, hx, h⟩ := ih hy
      exact ⟨x, List.mem_cons_of_mem _ hx, h⟩

/-! ## Declarations -/

/-- The context: a type and the file that is written for it. -/
structure Writing (t : RType) (file : List Elem) (p : String) : Prop where
  written : fromRecap t = .ok file
  package : .package p ∈ file
  regular : Regular t p

theorem Writing.gathered {t u : RType} {file : List Elem} {p : String} (hw : Writing t file p) (hs : Sub u t) :
    ∃ st st', gather u st = .ok st' := by
  obtain ⟨st, _, _, _, hg, -⟩ := fromRecap_ok hw.written
  exact gather_sub hs hg

theorem Writing.fields {t : RType} {fs : List RType} {a : Attrs} {file : List Elem} {p : String} (hw : Writing t file p)
    (hs : Sub (.struct fs a) t) : ∃ es, toFields 1 fs = .ok es := by
  obtain ⟨_, _, h⟩ := hw.gathered hs
  obtain ⟨_, _, es, _, h⟩ := gather_struct h
  exact ⟨es, h⟩

theorem Writing.message {t : RType} {fs : List RType} {a : Attrs} {file : List Elem} {p s : String} (hw : Writing t file p)
    (hs : Sub (.struct fs a) t) (ha : a.alias = .str s) : ∃ n es rest scope, Full file s (.message n (es ++ rest)) scope ∧
      toFields 1 fs = .ok es ∧ ∀ x ∈ rest, ∃ m, Spec.nameOf x = some m := by
  obtain ⟨_, _, h⟩ := hw.gathered hs
  obtain ⟨q, n, _, h1, -⟩ := gather_struct h
  have hu : Has t (.struct fs a) q n := ⟨hs, .inl ⟨_, _, rfl, h1⟩⟩
  obtain ⟨es, rest, h2, h3, h4⟩ := fields_of hw.written hw.package hu (hw.regular.reached _ _ _ hu)
  have : q ++ "." ++ n = s := by
    have := h1.1
    rw [ha] at this
    cases this
    rfl
  rw [this] at h2
  obtain ⟨scope, h5⟩ := declares_full h2
  exact ⟨n, es, rest, scope, h5, h3, h4⟩

theorem Writing.enum {t : RType} {xs : List PyVal} {a : Attrs} {file : List Elem} {p s : String} (hw : Writing t file p)
    (hs : Sub (.enum (.list xs) a) t) (ha : a.alias = .str s) :
    ∃ n scope, Full file s (.enum n (numbered 0 xs)) scope := by
  obtain ⟨_, _, h⟩ := hw.gathered hs
  obtain ⟨q, n, _, h1, -⟩ := gather_enum h
  have hu : Has t (.enum (.list xs) a) q n := ⟨hs, .inr ⟨_, _, rfl, h1⟩⟩
  have : q ++ "." ++ n = s := by
    have := h1.1
    rw [ha] at this
    cases this
    rfl
  rcases declared_of_reached hw.written hw.package hu (hw.regular.reached _ _ _ hu) with ⟨_, _, _, _, h, _⟩ | ⟨s', a', xs', h2, h3, h4⟩
  · cases h
  · cases h2
    cases h3
    rw [this] at h4
    obtain ⟨scope, h5⟩ := declares_full h4
    exact ⟨n, scope, h5⟩

theorem Writing.only_message {t : RType} {fs : List RType} {a : Attrs} {file : List Elem} {p s : String}
    (hw : Writing t file p) (hs : Sub (.struct fs a) t) (ha : a.alias = .str s) {e : Elem} {scope : List (List Elem)}
    (h : Full file s e scope) : ∃ n es rest, e = .message n (es ++ rest) ∧ toFields 1 fs = .ok es ∧
      ∀ x ∈ rest, ∃ m, Spec.nameOf x = some m := by
  obtain ⟨q, n, rfl, hq, ⟨fs', a', n', es, rest, h1, h2, h3, rfl, h4⟩ | ⟨y, a', n', xs, h1, h2, -, rfl⟩⟩ :=
    declares_made hw.written (full_declares hw.package h)
  · have he := hw.regular.once _ _ hs h1 (.inl ⟨_, _, rfl⟩) (.inl ⟨_, _, rfl⟩) (by
      cases hq
      exact ha.trans h2.1.symm)
    cases he
    exact ⟨_, es, rest, rfl, h3, h4⟩
  · have he := hw.regular.once _ _ hs h1 (.inl ⟨_, _, rfl⟩) (.inr ⟨_, _, rfl⟩) (by
      cases hq
      exact ha.trans h2.1.symm)
    cases he

theorem Writing.only_enum {t : RType} {xs : List PyVal} {a : Attrs} {file : List Elem} {p s : String}
    (hw : Writing t file p) (hs : Sub (.enum (.list xs) a) t) (ha : a.alias = .str s) {e : Elem} {scope : List (List Elem)}
    (h : Full file s e scope) : ∃ n, e = .enum n (numbered 0 xs) := by
  obtain ⟨q, n, rfl, hq, ⟨fs', a', n', es, rest, h1, h2, h3, rfl, h4⟩ | ⟨y, a', n', xs', h1, h2, h3, rfl⟩⟩ :=
    declares_made hw.written (full_declares hw.package h)
  · have he := hw.regular.once _ _ hs h1 (.inr ⟨_, _, rfl⟩) (.inl ⟨_, _, rfl⟩) (by
      cases hq
      exact ha.trans h2.1.symm)
    cases he
  · have he := hw.regular.once _ _ hs h1 (.inr ⟨_, _, rfl⟩) (.inr ⟨_, _, rfl⟩) (by
      cases hq
      exact ha.trans h2.1.symm)
    cases he
    cases h3
    exact ⟨_, rfl⟩

theorem numbered_mem {xs : List PyVal} {n : Int} {x : PyVal} : x ∈ xs ↔ ∃ k, (x, k) ∈ numbered n xs := by
  induction xs generalizing n with
  | nil => simp [numbered]
  | cons y xs ih =>
    simp only [List.mem_cons, numbered, Prod.mk.injEq]
    rw [ih (n := n + 1)]
    constructor
    · rintro (rfl | ⟨k, h⟩)
      · exact ⟨n, .inl ⟨rfl, rfl⟩⟩
      · exact ⟨k, .inr h⟩
    · rintro ⟨k, ⟨rfl, rfl⟩ | h⟩
      · exact .inl rfl
      · exact .inr ⟨k, h⟩

/-! ## What is stored -/

theorem members_sub {ts : List RType} {t : RType} {a : Attrs} (h : t ∈ members ts) : Sub t (.union ts a) :=
  .member (List.mem_filter.mp h).1 .refl

mutual
/-- What is stored is a datum of the type that is written. -/
theorem stored_datum {t : RType} {file : List Elem} {p : String} (hw : Writing t file p) {u : RType} {x : Val} {s : String}
    (h : Stored (Named file) u x) (hs : Sub u t) (hn : Writes u s) (scope : List (List Elem)) : Datum file scope s x :=
  match h with
  | .struct (fs := fs) (a := a) hl hx => by
    rcases hn with ⟨hn, -⟩ | ⟨-, z, ha, rfl⟩
    · exact hn.elim
    obtain ⟨n, es, rest, scope', h1, h2, h3⟩ := hw.message hs ha
    refine datum_of_full h1 (.message (by rw [fields_written h2 h3, (toFields_get h2).1, hl]) fun i e x he hxi => ?_)
    rw [fields_written h2 h3] at he
    obtain ⟨f, hf, h4⟩ := (toFields_get h2).2 i e he
    exact storedField_element hw (hx i f x hf hxi) (sub_trans (.field (List.mem_of_getElem? hf) .refl) hs)
      (toField_writesField (hw.regular.nesting _ _ hs f (List.mem_of_getElem? hf)) h4) _
  | .reference ha hr => by
    rcases hn with ⟨hn, -⟩ | ⟨-, z, hz, rfl⟩
    · exact hn.elim
    · simp only [RType.attrs] at hz
      rw [ha] at hz
      cases hz
      exact datum_scope hr
  | .enum hm => by
    rcases hn with ⟨hn, -⟩ | ⟨-, z, ha, rfl⟩
    · exact hn.elim
    obtain ⟨n, scope', h1⟩ := hw.enum hs ha
    obtain ⟨k, hk⟩ := (numbered_mem (n := 0)).mp hm
    exact datum_of_full h1 (.enum hk)
  | .null => by
    rcases hn with ⟨h1, h2⟩ | ⟨h1, -⟩
    · exact .scalar ((scalar_stored (refs := Named file) h1 h2).mpr (.null))
    · exact (h1 trivial).elim
  | .bool => by
    rcases hn with ⟨h1, h2⟩ | ⟨h1, -⟩
    · exact .scalar ((scalar_stored (refs := Named file) h1 h2).mpr (.bool))
    · exact (h1 trivial).elim
  | .int y1 y2 => by
    rcases hn with ⟨h1, h2⟩ | ⟨h1, -⟩
    · exact .scalar ((scalar_stored (refs := Named file) h1 h2).mpr (.int y1 y2))
    · exact (h1 trivial).elim
  | .long y1 y2 y3 => by
    rcases hn with ⟨h1, h2⟩ | ⟨h1, -⟩
    · exact .scalar ((scalar_stored (refs := Named file) h1 h2).mpr (.long y1 y2 y3))
    · exact (h1 trivial).elim
  | .float y1 y2 => by
    rcases hn with ⟨h1, h2⟩ | ⟨h1, -⟩
    · exact .scalar ((scalar_stored (refs := Named file) h1 h2).mpr (.float y1 y2))
    · exact (h1 trivial).elim
  | .double y1 y2 y3 => by
    rcases hn with ⟨h1, h2⟩ | ⟨h1, -⟩
    · exact .scalar ((scalar_stored (refs := Named file) h1 h2).mpr (.double y1 y2 y3))
    · exact (h1 trivial).elim
  | .string y1 => by
    rcases hn with ⟨h1, h2⟩ | ⟨h1, -⟩
    · exact .scalar ((scalar_stored (refs := Named file) h1 h2).mpr (.string y1))
    · exact (h1 trivial).elim
  | .bytes y1 => by
    rcases hn with ⟨h1, h2⟩ | ⟨h1, -⟩
    · exact .scalar ((scalar_stored (refs := Named file) h1 h2).mpr (.bytes y1))
    · exact (h1 trivial).elim
/-- The same for a field. -/
theorem storedField_element {t : RType} {file : List Elem} {p : String} (hw : Writing t file p) {f : RType} {x : Val}
    {e : Elem} (h : StoredField (Named file) f x) (hs : Sub f t) (hn : WritesField f e) (scope : List (List Elem)) :
    Element file scope e x :=
  match h with
  | .absent hp => by
    cases hn with
    | one => exact .absent (.inl rfl)
    | list | map | optional | oneof => exact hp.elim
  | .value hp hv => by
    cases hn with
    | one _ h1 => exact .value (by simp) (stored_datum hw hv hs h1 scope)
    | list | map | optional | oneof => exact hp.elim
  | .list hx => by
    cases hn with
    | one hp => exact hp.elim
    | list _ h1 => exact .repeated fun x hm => stored_datum hw (hx x hm) (sub_trans (.list .refl) hs) h1 scope
  | .map hk hv => by
    cases hn with
    | one hp => exact hp.elim
    | map _ _ h1 h2 =>
      exact .map (fun q hq => stored_datum hw (hk q hq) (sub_trans (.key .refl) hs) h1 scope)
        fun q hq => stored_datum hw (hv q hq) (sub_trans (.value .refl) hs) h2 scope
  | .missing => by
    cases hn with
    | one hp => exact hp.elim
    | optional => exact .absent (.inr rfl)
    | oneof => exact .unset
  | .member hm hv => by
    cases hn with
    | one hp => exact hp.elim
    | optional h1 h2 h3 =>
      exact .value (by simp) (stored_datum hw hv (sub_trans (members_sub hm) hs)
        (by rw [h1] at hm; cases List.mem_singleton.mp hm; exact h3) scope)
    | oneof h1 =>
      obtain ⟨e, he, -, name, k, s, rfl, h2⟩ := each_left h1 hm
      exact .oneof he (stored_datum hw hv (sub_trans (members_sub hm) hs) h2 scope)
end

mutual
/-- A datum of the type that is written is what is stored. -/
theorem datum_stored {t : RType} {file : List Elem} {p : String} (hw : Writing t file p) {u : RType} {x : Val} {s : String}
    {scope : List (List Elem)} (h : Datum file scope s x) (hs : Sub u t) (hp : Plain u) (hn : Writes u s) :
    Stored (Named file) u x :=
  match h with
  | .scalar hx => by
    rcases hn with ⟨h1, h2⟩ | ⟨-, z, -, rfl⟩
    · exact (scalar_stored h1 h2).mp hx
    · exact absurd (scalar_dot z) (scalar_some hx)
  | .other (e := e) (scope' := scope') h0 hf hd => by
    rcases hn with ⟨h1, h2⟩ | ⟨hns, z, ha, hz⟩
    · exact (scalar_stored h1 h2).mp ((scalar_datum h1 h2).mp h)
    rw [hz] at hf
    have hf := finds_absolute hf
    cases u with
    | struct fs a =>
      obtain ⟨n, es, rest, he, h3, h4⟩ := hw.only_message hs ha hf
      exact declared_stored hw hd hs he h3 h4
    | enum y a =>
      obtain ⟨xs, rfl⟩ := hw.regular.enums _ _ hs
      obtain ⟨n, rfl⟩ := hw.only_enum hs ha hf
      cases hd with
      | enum hm => exact .enum (numbered_mem.mpr ⟨_, hm⟩)
    | proxy r a => exact .reference ha (datum_of_full hf hd)
    | list | map | union => exact hp.elim
    | null | bool | int | float | string | bytes => exact (hns trivial).elim
theorem declared_stored {t : RType} {file : List Elem} {p : String} (hw : Writing t file p) {fs : List RType} {a : Attrs}
    {x : Val} {scope : List (List Elem)} {n : String} {e : Elem} {es rest : List Elem} (h : Declared file scope e x)
    (hs : Sub (.struct fs a) t) (he : e = .message n (es ++ rest)) (hf : toFields 1 fs = .ok es)
    (hr : ∀ x ∈ rest, ∃ m, Spec.nameOf x = some m) : Stored (Named file) (.struct fs a) x :=
  match h with
  | .enum _ => by cases he
  | .message (es := es') hl hx => by
    have hes : fields es' = es := by cases he; exact fields_written hf hr
    refine .struct (by rw [← (toFields_get hf).1, ← hes, hl]) fun i f x hfi hxi => ?_
    obtain ⟨e', h1, h2⟩ := toFields_at hf hfi
    exact element_stored hw (hx i e' x (by rw [hes]; exact h1) hxi) (sub_trans (.field (List.mem_of_getElem? hfi) .refl) hs)
      (toField_writesField (hw.regular.nesting _ _ hs f (List.mem_of_getElem? hfi)) h2)
theorem element_stored {t : RType} {file : List Elem} {p : String} (hw : Writing t file p) {f : RType} {x : Val}
    {e : Elem} {scope : List (List Elem)} (h : Element file scope e x) (hs : Sub f t) (hn : WritesField f e) :
    StoredField (Named file) f x :=
  match h with
  | .value hc hd => by
    cases hn with
    | one hp h1 => exact .value hp (datum_stored hw hd hs hp h1)
    | list => exact absurd rfl hc
    | optional h1 h2 h3 =>
      exact .member (by rw [h1]; exact List.mem_singleton.mpr rfl)
        (datum_stored hw hd (sub_trans (members_sub (by rw [h1]; exact List.mem_singleton.mpr rfl)) hs) h2 h3)
  | .absent hc => by
    cases hn with
    | one hp => exact .absent hp
    | list => simp at hc
    | optional => exact .missing
  | .repeated hx => by
    cases hn with
    | list hp h1 => exact .list fun x hm => datum_stored hw (hx x hm) (sub_trans (.list .refl) hs) hp h1
  | .map hk hv => by
    cases hn with
    | map hp hp' h1 h2 =>
      exact .map (fun q hq => datum_stored hw (hk q hq) (sub_trans (.key .refl) hs) hp h1)
        fun q hq => datum_stored hw (hv q hq) (sub_trans (.value .refl) hs) hp' h2
  | .unset => by
    cases hn with
    | oneof => exact .missing
  | .oneof hm hd => by
    cases hn with
    | oneof h1 =>
      obtain ⟨u, hu, hp, name, k, s', he, h2⟩ := each_right h1 hm
      cases he
      exact .member hu (datum_stored hw hd (sub_trans (members_sub hu) hs) hp h2)
end

/-! ## Values -/

/-- A value of a type without others inside it is stored. -/
theorem leaf_stored {refs : String → Val → Prop} {t : RType} {s : String} {x : Val} (hs : Simple t) (hw : scalarOf t = .ok s)
    (hi : ∀ b y a, t = .int b y a → a.logical = .none) (hb : ∀ l v a, t = .bytes l v a → a.logical = .none)
    (h : Values.Holds t x) : Stored refs t x := by
  cases h with
  | null => exact .null
  | bool => exact .bool
  | @int n s i a hl hv =>
    simp only [scalarOf, Avro.asInt] at hw
    split at hw
    · exact .int (by rintro m ⟨⟩; assumption) (intValue_grow hv (by omega))
    · split at hw
      · exact .long (by omega) (by assumption) (intValue_grow hv (by omega))
      · cases hw
  | @float n m a hm =>
    simp only [scalarOf, Avro.asInt] at hw
    split at hw
    · exact .float (by rintro m ⟨⟩; assumption) (by omega)
    · split at hw
      · exact .double (by omega) (by assumption) (by omega)
      · cases hw
  | string _ hf | uuid _ _ hf =>
    simp only [scalarOf] at hw
    rcases hf with rfl | ⟨k, rfl, hk⟩
    · simp [Avro.asInt] at hw
    · by_cases hle : k ≤ 2147483647
      · exact .string (by omega)
      · simp [Avro.asInt, hle] at hw
  | bytes _ hf =>
    simp only [scalarOf] at hw
    rcases hf with rfl | ⟨k, rfl, hk⟩
    · simp [Avro.asInt] at hw
    · by_cases hle : k ≤ 2147483647
      · exact .bytes (by omega)
      · simp [Avro.asInt, hle] at hw
  | decimal h => have := hb _ _ _ rfl; rw [h] at this; cases this
  | instant h | date h | time h => have := hi _ _ _ rfl; rw [h] at this; cases this
  | enum | list | map | struct | union => exact hs.elim

/-- A value of a type is what is stored. -/
theorem holds_stored {t : RType} {file : List Elem} {p : String} (hw : Writing t file p) (hl : Literal t) {u : RType}
    {x : Val} (h : HoldsWith (Named file) u x) : Sub u t →
      (∀ s, Plain u → Writes u s → Stored (Named file) u x) ∧ ∀ e, WritesField u e → StoredField (Named file) u x := by
  suffices hm : Sub u t → (∀ s, Plain u → Writes u s → Stored (Named file) u x) ∧
      ∀ e, ¬Plain u → WritesField u e → StoredField (Named file) u x by
    intro hs
    obtain ⟨h1, h2⟩ := hm hs
    refine ⟨h1, fun e he => ?_⟩
    cases he with
    | one hp hn => exact .value hp (h1 _ hp hn)
    | list hp hn => exact h2 _ id (.list (name := .none) (k := 0) hp hn)
    | map hp hp' hn hn' => exact h2 _ id (.map (name := .none) (k := 0) hp hp' hn hn')
    | optional hm' hp hn => exact h2 _ id (.optional (name := .none) (k := 0) hm' hp hn)
    | oneof he' => exact h2 _ id (.oneof (name := .none) he')
  induction h with
  | @leaf u x hc h =>
    intro hs
    constructor
    · intro s hp hn
      rcases hn with ⟨h1, h2⟩ | ⟨h1, -⟩
      · exact leaf_stored h1 h2 (fun b y a he => hl.1 b y a (he ▸ hs)) (fun b y a he => hl.2 b y a (he ▸ hs)) h
      · cases h with
        | enum h => exact .enum h
        | struct h3 h4 =>
          simp [children] at hc
          subst hc
          exact .struct h3 fun i f x hf => by simp at hf
        | list | map | union => exact hp.elim
        | _ => exact (h1 trivial).elim
    · intro e hp he
      cases he with
      | one h => exact absurd h hp
      | list | map => simp [children] at hc
      | optional h3 => simp [children] at hc; subst hc; simp [members] at h3
      | oneof => simp [children] at hc; subst hc; cases h with | union hm => simp at hm
  | list _ ih =>
    intro hs
    refine ⟨fun _ hp => hp.elim, fun e _ he => ?_⟩
    cases he with
    | list hp hn => exact .list fun x hx => (ih x hx (sub_trans (.list .refl) hs)).1 _ hp hn
    | one hp => exact hp.elim
  | map _ _ ih1 ih2 =>
    intro hs
    refine ⟨fun _ hp => hp.elim, fun e _ he => ?_⟩
    cases he with
    | map hp hp' hn hn' =>
      exact .map (fun q hq => (ih1 q hq (sub_trans (.key .refl) hs)).1 _ hp hn)
        fun q hq => (ih2 q hq (sub_trans (.value .refl) hs)).1 _ hp' hn'
    | one hp => exact hp.elim
  | @struct fs vs a hlen _ ih =>
    intro hs
    refine ⟨fun s _ hn => ?_, fun e hp => (hp trivial).elim⟩
    obtain ⟨es, hes⟩ := hw.fields hs
    refine .struct hlen fun i f x hf hx => ?_
    obtain ⟨e, -, he⟩ := toFields_at hes hf
    have hmem := List.mem_of_getElem? hf
    have he := toField_writesField (hw.regular.nesting _ _ hs f hmem) he
    obtain ⟨h1, h2⟩ := ih i f x hf hx (sub_trans (.field hmem .refl) hs)
    cases he with
    | one hp hn => exact .value hp (h1 _ hp hn)
    | list hp hn => exact h2 _ id (.list (name := .none) (k := 0) hp hn)
    | map hp hp' hn hn' => exact h2 _ id (.map (name := .none) (k := 0) hp hp' hn hn')
    | optional hm' hp hn => exact h2 _ id (.optional (name := .none) (k := 0) hm' hp hn)
    | oneof he' => exact h2 _ id (.oneof (name := .none) he')
  | @union ts u x a hm h ih =>
    intro hs
    refine ⟨fun _ hp => hp.elim, fun e _ he => ?_⟩
    cases hn : u.isNull with
    | true =>
      cases u <;> simp [RType.isNull] at hn
      cases h with
      | leaf _ h =>
        cases h
        exact .missing
    | false =>
      have hm' : u ∈ members ts := List.mem_filter.mpr ⟨hm, by simp [hn]⟩
      have ih := (ih (sub_trans (.member hm .refl) hs)).1
      cases he with
      | optional h1 h2 h3 =>
        rw [h1] at hm'
        cases List.mem_singleton.mp hm'
        exact .member (by rw [h1]; exact List.mem_singleton.mpr rfl) (ih _ h2 h3)
      | oneof h1 =>
        obtain ⟨e, -, hp, _, _, s, -, h2⟩ := each_left h1 hm'
        exact .member hm' (ih _ hp h2)
      | one hp => exact hp.elim
  | reference ha hr =>
    exact fun hs => ⟨fun _ _ _ => .reference ha hr, fun e hp => (hp trivial).elim⟩

end Recap.ProtoData
