/-!
# Python values

A small model of the Python values that flow through `recap`: the values that a
JSON document can hold, plus finite non-integral floats.  Used by every other
module.

What is simplified:
* dictionaries have string keys only (JSON objects and `**kwargs` do);
* floats are finite and non-integral, written `m / 2^e` in lowest terms (`m` odd,
  `0 < e`); integral floats such as `1.0`, infinities and NaN are not modelled;
* object identity is not modelled: values are immutable, and the places where the
  code mutates a shared object are modelled explicitly where they matter.
-/

namespace Recap

/-- Python exceptions that the modelled code can raise; messages are dropped.
`fuel` is not a Python exception: it marks that a fuelled definition ran out of
fuel, and theorems show it never happens.  `unmodelled` marks an operation
outside the modelled part of Python. -/
inductive PyErr where
  | typeError
  | valueError
  | assertionError
  | attributeError
  | keyError
  | indexError
  | fuel
  | unmodelled
deriving DecidableEq, Repr, Inhabited

instance {ε α : Type} [DecidableEq ε] [DecidableEq α] : DecidableEq (Except ε α)
  | .ok a, .ok b => if h : a = b then isTrue (h ▸ rfl) else isFalse (fun e => by cases e; exact h rfl)
  | .error a, .error b =>
    if h : a = b then isTrue (h ▸ rfl) else isFalse (fun e => by cases e; exact h rfl)
  | .ok _, .error _ => isFalse (fun e => by cases e)
  | .error _, .ok _ => isFalse (fun e => by cases e)

/-- JSON-like Python values. -/
inductive PyVal where
  | none
  | bool (b : Bool)
  | int (i : Int)
  | float (m : Int) (e : Nat)
  | str (s : String)
  | list (xs : List PyVal)
  | dict (kvs : List (String × PyVal))
deriving Repr, Inhabited

/-- A Python `dict` with string keys, in insertion order. -/
abbrev Dict := List (String × PyVal)

/-! ## Decidable structural equality (identity of values, not Python `==`) -/

mutual
def PyVal.beq : PyVal → PyVal → Bool
  | .none, .none => true
  | .bool a, .bool b => a == b
  | .int a, .int b => a == b
  | .float m e, .float m' e' => m == m' && e == e'
  | .str a, .str b => a == b
  | .list xs, .list ys => PyVal.beqList xs ys
  | .dict xs, .dict ys => PyVal.beqPairs xs ys
  | _, _ => false
def PyVal.beqList : List PyVal → List PyVal → Bool
  | [], [] => true
  | x :: xs, y :: ys => PyVal.beq x y && PyVal.beqList xs ys
  | _, _ => false
def PyVal.beqPairs : List (String × PyVal) → List (String × PyVal) → Bool
  | [], [] => true
  | (k, x) :: xs, (k', y) :: ys => k == k' && PyVal.beq x y && PyVal.beqPairs xs ys
  | _, _ => false
end

mutual
theorem PyVal.beq_iff : ∀ a b : PyVal, PyVal.beq a b = true ↔ a = b
  | .none, b => by cases b <;> simp [PyVal.beq]
  | .bool a, b => by cases b <;> simp [PyVal.beq]
  | .int a, b => by cases b <;> simp [PyVal.beq]
  | .float m e, b => by cases b <;> simp [PyVal.beq]
  | .str a, b => by cases b <;> simp [PyVal.beq]
  | .list xs, b => by cases b <;> simp [PyVal.beq, PyVal.beqList_iff]
  | .dict xs, b => by cases b <;> simp [PyVal.beq, PyVal.beqPairs_iff]
theorem PyVal.beqList_iff : ∀ a b : List PyVal, PyVal.beqList a b = true ↔ a = b
  | [], b => by cases b <;> simp [PyVal.beqList]
  | x :: xs, b => by cases b <;> simp [PyVal.beqList, PyVal.beq_iff x, PyVal.beqList_iff xs]
theorem PyVal.beqPairs_iff : ∀ a b : List (String × PyVal), PyVal.beqPairs a b = true ↔ a = b
  | [], b => by cases b <;> simp [PyVal.beqPairs]
  | (k, x) :: xs, b => by
      cases b with
      | nil => simp [PyVal.beqPairs]
      | cons y ys =>
        obtain ⟨k', y⟩ := y
        simp [PyVal.beqPairs, PyVal.beq_iff x, PyVal.beqPairs_iff xs, and_assoc]
end

instance : DecidableEq PyVal := fun a b =>
  decidable_of_iff _ (PyVal.beq_iff a b)

/-! ## Dictionary operations -/

namespace Dict

/-- `d.get(k)` as an option (`none` when the key is absent). -/
def get? (d : Dict) (k : String) : Option PyVal :=
  match d with
  | [] => .none
  | (k', v) :: rest => if k' = k then some v else get? rest k

/-- `k in d`. -/
def has (d : Dict) (k : String) : Bool := (get? d k).isSome

/-- `d.get(k, default)`. -/
def getD (d : Dict) (k : String) (dflt : PyVal) : PyVal := (get? d k).getD dflt

/-- `d[k] = v`: replaces in place, or appends at the end. -/
def set (d : Dict) (k : String) (v : PyVal) : Dict :=
  match d with
  | [] => [(k, v)]
  | (k', v') :: rest => if k' = k then (k, v) :: rest else (k', v') :: set rest k v

/-- The dictionary left by `d.pop(k, _)`. -/
def erase (d : Dict) (k : String) : Dict := d.filter (fun kv => kv.1 != k)

/-- `d | d'` and `d.update(d')`. -/
def update (d d' : Dict) : Dict := d'.foldl (fun acc kv => set acc kv.1 kv.2) d

/-- The keys in insertion order. -/
def keys (d : Dict) : List String := d.map (·.1)

end Dict

/-! ## Size of a value -/

mutual
/-- Number of constructors in a value; used as fuel bound and induction measure. -/
def PyVal.size : PyVal → Nat
  | .list xs => 1 + PyVal.sizeList xs
  | .dict kvs => 1 + PyVal.sizePairs kvs
  | _ => 1
def PyVal.sizeList : List PyVal → Nat
  | [] => 0
  | x :: xs => 1 + PyVal.size x + PyVal.sizeList xs
def PyVal.sizePairs : List (String × PyVal) → Nat
  | [] => 0
  | (_, x) :: xs => 1 + PyVal.size x + PyVal.sizePairs xs
end

/-! ## Python semantics of values -/

/-- `bool(v)`. -/
def PyVal.truthy : PyVal → Bool
  | .none => false
  | .bool b => b
  | .int i => i != 0
  | .float _ _ => true
  | .str s => s != ""
  | .list xs => !xs.isEmpty
  | .dict kvs => !kvs.isEmpty

/-- `v is None`. -/
def PyVal.isNone : PyVal → Bool
  | .none => true
  | _ => false

/-- Integer value of a Python bool (`True == 1`). -/
def boolInt (b : Bool) : Int := if b then 1 else 0

mutual
/-- Python `==` on values: `True == 1`, dictionaries compare without regard to
insertion order, values of different kinds are unequal. -/
def PyVal.pyEq : PyVal → PyVal → Bool
  | .none, .none => true
  | .bool a, .bool b => a == b
  | .bool a, .int b => boolInt a == b
  | .int a, .bool b => a == boolInt b
  | .int a, .int b => a == b
  | .float m e, .float m' e' => m == m' && e == e'
  | .str a, .str b => a == b
  | .list xs, .list ys => PyVal.pyEqList xs ys
  | .dict xs, .dict ys => xs.length == ys.length && PyVal.pyEqDict xs ys
  | _, _ => false
def PyVal.pyEqList : List PyVal → List PyVal → Bool
  | [], [] => true
  | x :: xs, y :: ys => PyVal.pyEq x y && PyVal.pyEqList xs ys
  | _, _ => false
/-- Every entry of the first dictionary is in the second with an equal value. -/
def PyVal.pyEqDict : List (String × PyVal) → List (String × PyVal) → Bool
  | [], _ => true
  | (k, x) :: xs, ys =>
    (match Dict.get? ys k with
     | some y => PyVal.pyEq x y
     | .none => false) && PyVal.pyEqDict xs ys
end

/-- Python `==` on dictionaries. -/
def Dict.pyEq (a b : Dict) : Bool := a.length == b.length && PyVal.pyEqDict a b

/-- `v < n` for an integer literal `n`. -/
def PyVal.ltInt (v : PyVal) (n : Int) : Except PyErr Bool :=
  match v with
  | .int i => .ok (decide (i < n))
  | .bool b => .ok (decide (boolInt b < n))
  | .float m e => .ok (decide (m < n * 2 ^ e))
  | _ => .error .typeError

/-- `v > n` for an integer literal `n`. -/
def PyVal.gtInt (v : PyVal) (n : Int) : Except PyErr Bool :=
  match v with
  | .int i => .ok (decide (n < i))
  | .bool b => .ok (decide (n < boolInt b))
  | .float m e => .ok (decide (n * 2 ^ e < m))
  | _ => .error .typeError

/-- The values produced by `for x in v`. -/
def PyVal.iter : PyVal → Except PyErr (List PyVal)
  | .list xs => .ok xs
  | .str s => .ok (s.toList.map (fun c => .str (String.ofList [c])))
  | .dict kvs => .ok (kvs.map (fun kv => .str kv.1))
  | _ => .error .typeError

/-- Is `p` a contiguous sub-list of `s`? (`p in s` for Python strings.) -/
def isInfix (p s : List Char) : Bool :=
  match s with
  | [] => p.isEmpty
  | c :: cs => p.isPrefixOf (c :: cs) || isInfix p cs

/-- `s in v` for a string `s`. -/
def PyVal.containsStr (v : PyVal) (s : String) : Except PyErr Bool :=
  match v with
  | .list xs => .ok (xs.any (fun x => PyVal.pyEq (.str s) x))
  | .str t => .ok (isInfix s.toList t.toList)
  | .dict kvs => .ok (Dict.has kvs s)
  | _ => .error .typeError

end Recap
