import Verif.Storage

/-!
# Specification of the schema storage

Independent of files and directories: a store knows some names, and holds a document for some names
and versions.
-/

set_option autoImplicit false

namespace Recap.Spec

open Recap

/-- The abstract store: which names are known, and what is stored under a name and version. -/
structure Store where
  known : Str → Prop
  doc : Str → Int → Option Content

namespace Store

/-- The store without any name. -/
def empty : Store := { known := fun _ => False, doc := fun _ _ => none }

/-- The store after `name` has become known. -/
def learn (s : Store) (name : Str) : Store := { s with known := fun n => s.known n ∨ n = name }

/-- The store after `c` has been stored under `name` and `v`. -/
def store (s : Store) (name : Str) (v : Int) (c : Content) : Store where
  known n := s.known n ∨ n = name
  doc n w := if n = name ∧ w = v then some c else s.doc n w

/-- There is something under `name` and `v`. -/
def Has (s : Store) (name : Str) (v : Int) : Prop := s.doc name v ≠ none

/-- `v` is the highest version of `name`. -/
def IsLatest (s : Store) (name : Str) (v : Int) : Prop := s.Has name v ∧ ∀ w, s.Has name w → w ≤ v

/-- The version under which a new document is stored: the given one, or one more than the highest,
or 1 if there is none. -/
def IsNext (s : Store) (name : Str) (given : Option Int) (v : Int) : Prop :=
  match given with
  | some w => v = w
  | none => (∃ l, s.IsLatest name l ∧ v = l + 1) ∨ ((∀ w, ¬ s.Has name w) ∧ v = 1)

/-- What reading a stored document gives. -/
def reading (c : Content) (v : Int) : Except StoreErr (Option (RType × Int)) :=
  match c with
  | .truncated => .error .jsonDecode
  | .complete d => match parse d with
    | .error e => .error (.py e)
    | .ok t => .ok (some (t, v))

end Store

/-- Calls of the storage API. -/
inductive Call where
  | put (name : Str) (t : RType) (version : Option Int)
  | get (name : Str) (version : Option Int)
  | versions (name : Str)
  | latest (name : Str)
  | ls
  /-- A `put` during which the process stops, and is started again. -/
  | crash (name : Str) (t : RType) (version : Option Int) (step : Nat)

/-- Answers of the storage API. -/
inductive Answer where
  | put (r : Except StoreErr Int)
  | get (r : Except StoreErr (Option (RType × Int)))
  | versions (r : Except StoreErr (Option (List Int)))
  | latest (r : Except StoreErr (Option Int))
  | ls (r : Except StoreErr (List Str))
  | crash

/-- `l` is in strictly ascending order. -/
def Ascending : List Int → Prop
  | [] => True
  | x :: xs => (∀ y ∈ xs, x < y) ∧ Ascending xs

/-- Python's `<` on strings: by code points, and a proper prefix is smaller. -/
inductive StrLt : Str → Str → Prop
  | nil {c s} : StrLt [] (c :: s)
  | head {a b s t} : a.toNat < b.toNat → StrLt (a :: s) (b :: t)
  | tail {a s t} : StrLt s t → StrLt (a :: s) (a :: t)

/-- Names in strictly ascending order. -/
def AscendingNames : List Str → Prop
  | [] => True
  | x :: xs => (∀ y ∈ xs, StrLt x y) ∧ AscendingNames xs

/-- Names that can be used as directory names: not empty, not `.` and not `..`. -/
def OrdinaryName (name : Str) : Prop := name ≠ [] ∧ name ≠ ['.'] ∧ name ≠ ['.', '.']

/-- The answers that the specification allows, and the store afterwards. -/
def Allowed (s : Store) : Call → Answer → Store → Prop
  | .put name t version, .put r, s' =>
    match toDict true true t with
    | .error e => r = .error (.py e) ∧ s' = s
    | .ok d => ∃ v, s.IsNext name version v ∧ r = .ok v ∧ s' = s.store name v (.complete d)
  | .get name (some v), .get r, s' => s' = s ∧
    match s.doc name v with
    | none => r = .ok none
    | some c => r = Store.reading c v
  | .get name none, .get r, s' => s' = s ∧
    (((∀ v, ¬ s.Has name v) ∧ r = .ok none) ∨
      ∃ v c, s.IsLatest name v ∧ s.doc name v = some c ∧ r = Store.reading c v)
  | .versions name, .versions r, s' => s' = s ∧
    ((¬ s.known name ∧ r = .ok none) ∨
      (s.known name ∧ ∃ l, r = .ok (some l) ∧ Ascending l ∧ ∀ v, v ∈ l ↔ s.Has name v))
  | .latest name, .latest r, s' => s' = s ∧
    (((∀ v, ¬ s.Has name v) ∧ r = .ok none) ∨ ∃ v, s.IsLatest name v ∧ r = .ok (some v))
  | .ls, .ls r, s' => s' = s ∧ ∃ l, r = .ok l ∧ AscendingNames l ∧ ∀ n, n ∈ l ↔ s.known n
  | .crash name t version _, .crash, s' =>
    match toDict true true t with
    | .error _ => s' = s
    | .ok d => ∃ v, s.IsNext name version v ∧
      (s' = s ∨ s' = s.learn name ∨ s' = s.store name v .truncated ∨
        s' = s.store name v (.complete d))
  | _, _, _ => False

/-- The answers to a sequence of calls that the specification allows. -/
def AllowedAll (s : Store) : List Call → List Answer → Store → Prop
  | [], [], s' => s' = s
  | c :: cs, a :: as, s' => ∃ s1, Allowed s c a s1 ∧ AllowedAll s1 cs as s'
  | _, _, _ => False

/-- The name that a call is about is ordinary. -/
def OrdinaryCall : Call → Prop
  | .put name _ _ | .crash name _ _ _ | .get name _ | .versions name | .latest name => OrdinaryName name
  | .ls => True

end Recap.Spec
