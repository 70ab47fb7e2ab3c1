import Verif.Py

/-! # Lemmas about dictionaries and sizes -/

namespace Recap

namespace Dict

@[simp] theorem get?_nil (k : String) : get? [] k = .none := rfl

theorem get?_cons (k k' : String) (v : PyVal) (d : Dict) :
    get? ((k', v) :: d) k = if k' = k then some v else get? d k := rfl

@[simp] theorem get?_cons_self (k : String) (v : PyVal) (d : Dict) :
    get? ((k, v) :: d) k = some v := by simp [get?]

theorem get?_cons_ne {k k' : String} (v : PyVal) (d : Dict) (h : k' ≠ k) :
    get? ((k', v) :: d) k = get? d k := by simp [get?, h]

theorem mem_of_get? {d : Dict} {k : String} {v : PyVal} (h : get? d k = some v) :
    (k, v) ∈ d := by
  induction d with
  | nil => simp at h
  | cons kv d ih =>
    obtain ⟨k', v'⟩ := kv
    rw [get?_cons] at h
    split at h
    · simp_all
    · exact List.mem_cons_of_mem _ (ih h)

theorem get?_eq_none_iff {d : Dict} {k : String} : get? d k = .none ↔ k ∉ keys d := by
  induction d with
  | nil => simp [keys]
  | cons kv d ih =>
    obtain ⟨k', v'⟩ := kv
    rw [get?_cons]
    by_cases h : k' = k
    · simp [h, keys]
    · simp only [h, if_false, ih, keys, List.map_cons, List.mem_cons, not_or]
      constructor
      · intro h2; exact ⟨fun e => h e.symm, h2⟩
      · intro h2; exact h2.2

theorem has_iff {d : Dict} {k : String} : has d k = true ↔ k ∈ keys d := by
  unfold has
  cases h : get? d k with
  | none => simp [get?_eq_none_iff.mp h]
  | some v =>
    simp only [Option.isSome_some, true_iff]
    apply Classical.byContradiction
    intro hn
    rw [get?_eq_none_iff.mpr hn] at h
    cases h

theorem has_eq_false_iff {d : Dict} {k : String} : has d k = false ↔ k ∉ keys d := by
  rw [← has_iff]; simp

theorem get?_append (d e : Dict) (k : String) :
    get? (d ++ e) k = match get? d k with | some v => some v | .none => get? e k := by
  induction d with
  | nil => simp
  | cons kv d ih =>
    obtain ⟨k', v'⟩ := kv
    simp only [List.cons_append, get?_cons]
    split <;> simp_all

@[simp] theorem keys_nil : keys [] = [] := rfl
@[simp] theorem keys_cons (kv : String × PyVal) (d : Dict) : keys (kv :: d) = kv.1 :: keys d := rfl
@[simp] theorem keys_append (d e : Dict) : keys (d ++ e) = keys d ++ keys e := by simp [keys]

theorem mem_keys_of_mem {d : Dict} {k : String} {v : PyVal} (h : (k, v) ∈ d) : k ∈ keys d :=
  List.mem_map_of_mem (f := (·.1)) h

theorem get?_of_mem_nodup {d : Dict} {k : String} {v : PyVal} (hn : (keys d).Nodup)
    (h : (k, v) ∈ d) : get? d k = some v := by
  induction d with
  | nil => simp at h
  | cons kv d ih =>
    obtain ⟨k', v'⟩ := kv
    simp only [keys_cons, List.nodup_cons] at hn
    rw [get?_cons]
    rcases List.mem_cons.mp h with h | h
    · cases h; simp
    · have := mem_keys_of_mem h
      have hne : k' ≠ k := fun e => hn.1 (e ▸ this)
      simp [hne, ih hn.2 h]

/-! ### set -/

theorem set_of_not_mem {d : Dict} {k : String} (v : PyVal) (h : k ∉ keys d) :
    set d k v = d ++ [(k, v)] := by
  induction d with
  | nil => rfl
  | cons kv d ih =>
    obtain ⟨k', v'⟩ := kv
    simp only [keys_cons, List.mem_cons, not_or] at h
    have : k' ≠ k := fun e => h.1 e.symm
    simp [set, this, ih h.2]

theorem get?_set_self (d : Dict) (k : String) (v : PyVal) : get? (set d k v) k = some v := by
  induction d with
  | nil => simp [set]
  | cons kv d ih =>
    obtain ⟨k', v'⟩ := kv
    simp only [set]
    split
    · simp
    · rename_i h; simp [get?_cons, h, ih]

theorem get?_set_ne (d : Dict) {k k' : String} (v : PyVal) (h : k' ≠ k) :
    get? (set d k' v) k = get? d k := by
  induction d with
  | nil => simp [set, get?_cons, h]
  | cons kv d ih =>
    obtain ⟨k'', v'⟩ := kv
    simp only [set]
    split
    · rename_i h2; simp [get?_cons, h, h2]
    · rename_i h2
      simp only [get?_cons, ih]

theorem keys_set (d : Dict) (k : String) (v : PyVal) :
    keys (set d k v) = if k ∈ keys d then keys d else keys d ++ [k] := by
  induction d with
  | nil => simp [set]
  | cons kv d ih =>
    obtain ⟨k', v'⟩ := kv
    simp only [set]
    by_cases h : k' = k
    · simp [h]
    · have h' : ¬ k = k' := fun e => h e.symm
      simp only [h, if_false, keys_cons, ih, List.mem_cons, h', false_or]
      split <;> simp

theorem nodup_keys_set {d : Dict} (k : String) (v : PyVal) (h : (keys d).Nodup) :
    (keys (set d k v)).Nodup := by
  rw [keys_set]
  split
  · exact h
  · rename_i hk
    rw [List.nodup_append]
    refine ⟨h, by simp, ?_⟩
    intro a ha b hb
    simp only [List.mem_singleton] at hb
    subst hb
    intro e; subst e; exact hk ha

/-! ### erase -/

@[simp] theorem erase_nil (k : String) : erase [] k = [] := rfl

theorem erase_cons (d : Dict) (k k' : String) (v : PyVal) :
    erase ((k', v) :: d) k = if k' = k then erase d k else (k', v) :: erase d k := by
  unfold erase
  by_cases h : k' = k <;> simp [List.filter_cons, h]

theorem erase_append (d e : Dict) (k : String) : erase (d ++ e) k = erase d k ++ erase e k := by
  simp [erase]

theorem erase_of_not_mem {d : Dict} {k : String} (h : k ∉ keys d) : erase d k = d := by
  unfold erase
  rw [List.filter_eq_self]
  intro kv hkv
  have : kv.1 ∈ keys d := List.mem_map_of_mem hkv
  simp only [bne_iff_ne]
  intro e; subst e; exact h this

theorem get?_erase_self (d : Dict) (k : String) : get? (erase d k) k = .none := by
  induction d with
  | nil => rfl
  | cons kv d ih =>
    obtain ⟨k', v'⟩ := kv
    rw [erase_cons]
    split
    · exact ih
    · rename_i h; simp [get?_cons, h, ih]

theorem get?_erase_ne (d : Dict) {k k' : String} (h : k' ≠ k) :
    get? (erase d k') k = get? d k := by
  induction d with
  | nil => rfl
  | cons kv d ih =>
    obtain ⟨k'', v'⟩ := kv
    rw [erase_cons]
    split
    · rename_i h2; subst h2; simp [get?_cons, h, ih]
    · simp [get?_cons, ih]

theorem get?_erase (d : Dict) (k k' : String) :
    get? (erase d k') k = if k' = k then .none else get? d k := by
  split
  · rename_i h; subst h; exact get?_erase_self _ _
  · rename_i h; exact get?_erase_ne _ h

theorem keys_erase (d : Dict) (k : String) : keys (erase d k) = (keys d).filter (· != k) := by
  unfold keys erase
  rw [List.filter_map]
  rfl

theorem mem_keys_erase {d : Dict} {k k' : String} :
    k ∈ keys (erase d k') ↔ k ∈ keys d ∧ k ≠ k' := by
  rw [keys_erase]; simp

theorem mem_erase {d : Dict} {kv : String × PyVal} {k : String} :
    kv ∈ erase d k ↔ kv ∈ d ∧ kv.1 ≠ k := by
  simp [erase]

/-! ### update -/

theorem get?_filter_keys (d : Dict) (p : String → Bool) (k : String) :
    get? (d.filter (fun kv => p kv.1)) k = if p k then get? d k else .none := by
  induction d with
  | nil => simp
  | cons kv d ih =>
    obtain ⟨k', v⟩ := kv
    by_cases hp : p k'
    · simp only [List.filter_cons, hp, if_true, get?_cons, ih]
      by_cases h : k' = k
      · subst h; simp [hp]
      · simp [h]
    · simp only [List.filter_cons, hp, Bool.false_eq_true, if_false, ih, get?_cons]
      by_cases h : k' = k
      · subst h; simp [hp]
      · simp [h]

@[simp] theorem update_nil (d : Dict) : update d [] = d := rfl

theorem update_cons (d e : Dict) (kv : String × PyVal) :
    update d (kv :: e) = update (set d kv.1 kv.2) e := rfl

theorem update_of_disjoint {d e : Dict} (h : ∀ k ∈ keys e, k ∉ keys d) (hn : (keys e).Nodup) :
    update d e = d ++ e := by
  induction e generalizing d with
  | nil => simp
  | cons kv e ih =>
    obtain ⟨k, v⟩ := kv
    simp only [keys_cons, List.nodup_cons] at hn
    rw [update_cons, set_of_not_mem _ (h k (by simp))]
    rw [ih _ hn.2]
    · simp
    · intro k' hk'
      simp only [keys_append, keys_cons, keys_nil, List.mem_append, List.mem_singleton, not_or]
      refine ⟨h k' (by simp [hk']), ?_⟩
      intro e'; subst e'; exact hn.1 hk'

end Dict

/-! ## Sizes -/

theorem PyVal.size_pos (v : PyVal) : 0 < v.size := by
  cases v <;> simp [PyVal.size] <;> omega

theorem PyVal.size_lt_of_mem {x : PyVal} {xs : List PyVal} (h : x ∈ xs) :
    x.size < (PyVal.list xs).size := by
  induction xs with
  | nil => simp at h
  | cons y ys ih =>
    rcases List.mem_cons.mp h with h | h
    · subst h; simp only [PyVal.size, PyVal.sizeList]; omega
    · have := ih h
      simp only [PyVal.size, PyVal.sizeList] at this ⊢; omega

theorem PyVal.size_lt_of_mem_dict {k : String} {x : PyVal} {d : Dict} (h : (k, x) ∈ d) :
    x.size < (PyVal.dict d).size := by
  induction d with
  | nil => simp at h
  | cons y ys ih =>
    obtain ⟨k', y⟩ := y
    rcases List.mem_cons.mp h with h | h
    · cases h; simp only [PyVal.size, PyVal.sizePairs]; omega
    · have := ih h
      simp only [PyVal.size, PyVal.sizePairs] at this ⊢; omega

theorem PyVal.size_filter_le (d : Dict) (p : String × PyVal → Bool) :
    (PyVal.dict (d.filter p)).size ≤ (PyVal.dict d).size := by
  induction d with
  | nil => simp
  | cons y ys ih =>
    obtain ⟨k', y⟩ := y
    simp only [List.filter_cons]
    split <;> simp only [PyVal.size, PyVal.sizePairs] at ih ⊢ <;> omega

theorem PyVal.size_erase_le (d : Dict) (k : String) :
    (PyVal.dict (d.erase k)).size ≤ (PyVal.dict d).size := PyVal.size_filter_le d _

theorem PyVal.size_erase_lt {d : Dict} {k : String} (h : k ∈ d.keys) :
    (PyVal.dict (d.erase k)).size < (PyVal.dict d).size := by
  induction d with
  | nil => simp at h
  | cons y ys ih =>
    obtain ⟨k', y⟩ := y
    rw [Dict.erase_cons]
    split
    · have := PyVal.size_erase_le ys k
      simp only [PyVal.size, PyVal.sizePairs] at this ⊢; omega
    · rename_i hne
      have : k ∈ Dict.keys ys := by
        simp only [Dict.keys_cons, List.mem_cons] at h
        rcases h with h | h
        · exact absurd h.symm hne
        · exact h
      have := ih this
      simp only [PyVal.size, PyVal.sizePairs] at this ⊢; omega

/-- Elements of an iteration are no larger than the value iterated over. -/
theorem PyVal.size_iter {v : PyVal} {xs : List PyVal} (h : v.iter = .ok xs) {x : PyVal}
    (hx : x ∈ xs) : x.size ≤ v.size := by
  cases v <;> simp only [PyVal.iter] at h
  case list ys => cases h; exact Nat.le_of_lt (PyVal.size_lt_of_mem hx)
  case str s =>
    cases h
    obtain ⟨c, _, rfl⟩ := List.mem_map.mp hx
    simp [PyVal.size]
  case dict kvs =>
    cases h
    obtain ⟨c, _, rfl⟩ := List.mem_map.mp hx
    simp [PyVal.size]
  all_goals cases h

end Recap
