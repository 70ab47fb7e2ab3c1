import Verif.FuelLemmas2
import Verif.TypesSpec

/-! # Derivations of successful `from_dict` calls -/

namespace Recap

/-- Types without nested types, as `from_dict` builds them (references are live). -/
def RType.isLeaf : RType → Prop
  | .null _ | .bool _ | .int .. | .float .. | .string .. | .bytes .. | .enum .. => True
  | .proxy r _ => r = .none
  | _ => False

mutual
/-- `Built reg t reg'`: the type `t` can be produced by `from_dict` started with registry `reg`,
leaving registry `reg'`. -/
inductive Built : Registry → RType → Registry → Prop
  | leaf {reg t reg'} : t.isLeaf → finish t reg = .ok (t, reg') → Built reg t reg'
  | list {reg t reg1 l v a reg2} : Built reg t reg1 →
      finish (.list t l v a) reg1 = .ok (.list t l v a, reg2) → Built reg (.list t l v a) reg2
  | map {reg k reg1 v reg2 a reg3} : Built reg k reg1 → Built reg1 v reg2 →
      finish (.map k v a) reg2 = .ok (.map k v a, reg3) → Built reg (.map k v a) reg3
  | struct {reg fs reg1 a reg2} : BuiltAll reg fs reg1 →
      finish (.struct fs a) reg1 = .ok (.struct fs a, reg2) → Built reg (.struct fs a) reg2
  | union {reg ts reg1 a reg2} : BuiltAll reg ts reg1 →
      finish (.union ts a) reg1 = .ok (.union ts a, reg2) → Built reg (.union ts a) reg2
inductive BuiltAll : Registry → List RType → Registry → Prop
  | nil {reg} : BuiltAll reg [] reg
  | cons {reg t reg1 ts reg2} : Built reg t reg1 → BuiltAll reg1 ts reg2 →
      BuiltAll reg (t :: ts) reg2
end

theorem finish_fst {t t' : RType} {reg reg' : Registry} (h : finish t reg = .ok (t', reg')) :
    t' = t := by
  unfold finish at h
  simp only [bind, Except.bind, pure, Except.pure] at h
  split at h
  · cases h
  split at h
  · split at h
    · cases h
    · cases h; rfl
  · cases h; rfl

theorem ok_bind {α β : Type} {x : Except PyErr α} {k : α → Except PyErr β} {b : β}
    (h : (x >>= k) = .ok b) : ∃ a, x = .ok a ∧ k a = .ok b := by
  cases x with
  | error e => simp [bind, Except.bind] at h
  | ok a => exact ⟨a, rfl, h⟩

theorem parseAll_built {f : PyVal → Registry → Except PyErr (RType × Registry)} {xs : List PyVal}
    (hf : ∀ x ∈ xs, ∀ reg t reg', f x reg = .ok (t, reg') → Built reg t reg')
    {reg reg' : Registry} {ts : List RType} (h : parseAll f xs reg = .ok (ts, reg')) :
    BuiltAll reg ts reg' := by
  induction xs generalizing reg ts with
  | nil => simp only [parseAll] at h; cases h; exact .nil
  | cons x xs ih =>
    simp only [parseAll] at h
    obtain ⟨⟨t, r1⟩, h1, h⟩ := ok_bind h
    obtain ⟨⟨ts', r2⟩, h2, h⟩ := ok_bind h
    simp only [pure, Except.pure] at h
    cases h
    exact .cons (hf x (by simp) _ _ _ h1) (ih (fun y hy => hf y (by simp [hy])) h2)

theorem construct_built {f : PyVal → Registry → Except PyErr (RType × Registry)} {m : Nat}
    {d : Dict} (hA : ArgOK m d)
    (hf : ∀ x, x.size ≤ m → ∀ reg t reg', f x reg = .ok (t, reg') → Built reg t reg')
    {reg reg1 reg2 : Registry} {t : RType}
    (h : construct f (d.getD "type" .none) (d.erase "type") reg = .ok (t, reg1))
    (hfin : finish t reg1 = .ok (t, reg2)) : Built reg t reg2 := by
  have hA' := hA.erase "type"
  have htl := hA.typeList
  cases htn : Dict.get? d "type" with
  | none => simp [Dict.getD, htn, construct] at h
  | some tn =>
    have hgd : d.getD "type" .none = tn := by simp [Dict.getD, htn]
    rw [hgd] at h
    generalize d.erase "type" = kw at hA' h
    cases tn with
    | list xs =>
      rw [construct_list] at h
      obtain ⟨⟨ts, r1⟩, h1, h⟩ := ok_bind h
      have hb := parseAll_built (fun x hx => hf x (htl xs htn x (List.mem_filter.mp hx).1)) h1
      simp only at h
      split at h
      · cases h
      · obtain ⟨a, _, h⟩ := ok_bind h
        simp only [pure, Except.pure] at h; cases h
        exact .union hb hfin
    | str name =>
      by_cases hcore : name ∈ coreNames
      · simp only [coreNames, List.mem_cons, List.not_mem_nil, or_false] at hcore
        rcases hcore with rfl | rfl | rfl | rfl | rfl | rfl | rfl | rfl | rfl | rfl | rfl
        · rw [construct_null] at h
          obtain ⟨a, _, h⟩ := ok_bind h
          simp only [pure, Except.pure] at h; cases h
          exact .leaf trivial hfin
        · rw [construct_bool] at h
          obtain ⟨a, _, h⟩ := ok_bind h
          simp only [pure, Except.pure] at h; cases h
          exact .leaf trivial hfin
        · rw [construct_int] at h
          split at h
          · cases h
          obtain ⟨a, _, h⟩ := ok_bind h
          simp only [pure, Except.pure] at h; cases h
          exact .leaf trivial hfin
        · rw [construct_float] at h
          split at h
          · cases h
          obtain ⟨a, _, h⟩ := ok_bind h
          simp only [pure, Except.pure] at h; cases h
          exact .leaf trivial hfin
        · rw [construct_string] at h
          obtain ⟨a, _, h⟩ := ok_bind h
          simp only [pure, Except.pure] at h; cases h
          exact .leaf trivial hfin
        · rw [construct_bytes] at h
          obtain ⟨a, _, h⟩ := ok_bind h
          simp only [pure, Except.pure] at h; cases h
          exact .leaf trivial hfin
        · rw [construct_listT] at h
          split at h
          · cases h
          rename_i v hv
          obtain ⟨⟨t1, r1⟩, h1, h⟩ := ok_bind h
          obtain ⟨a, _, h⟩ := ok_bind h
          simp only [pure, Except.pure] at h; cases h
          exact .list (hf v (hA'.direct _ v (by simp) hv) _ _ _ h1) hfin
        · rw [construct_map] at h
          split at h
          · rename_i k v hk hv
            obtain ⟨⟨t1, r1⟩, h1, h⟩ := ok_bind h
            obtain ⟨⟨t2, r2⟩, h2, h⟩ := ok_bind h
            obtain ⟨a, _, h⟩ := ok_bind h
            simp only [pure, Except.pure] at h; cases h
            exact .map (hf k (hA'.direct _ k (by simp) hk) _ _ _ h1)
              (hf v (hA'.direct _ v (by simp) hv) _ _ _ h2) hfin
          · cases h
        · rw [construct_struct] at h
          obtain ⟨xs, hi, h⟩ := ok_bind h
          obtain ⟨⟨ts, r1⟩, h1, h⟩ := ok_bind h
          obtain ⟨a, _, h⟩ := ok_bind h
          simp only [pure, Except.pure] at h; cases h
          refine .struct (parseAll_built ?_ h1) hfin
          intro x hx
          cases hg : Dict.get? kw "fields" with
          | none =>
            simp [Dict.getD, hg, PyVal.iter] at hi
            subst hi; simp at hx
          | some v =>
            simp only [Dict.getD, hg, Option.getD_some] at hi
            exact hf x (hA'.members _ v xs (by simp) hg hi x hx)
        · rw [construct_enum] at h
          split at h
          · cases h
          obtain ⟨a, _, h⟩ := ok_bind h
          simp only [pure, Except.pure] at h; cases h
          exact .leaf trivial hfin
        · rw [construct_union] at h
          split at h
          · cases h
          rename_i v hv
          obtain ⟨xs, hi, h⟩ := ok_bind h
          obtain ⟨⟨ts, r1⟩, h1, h⟩ := ok_bind h
          obtain ⟨a, _, h⟩ := ok_bind h
          simp only [pure, Except.pure] at h; cases h
          exact .union (parseAll_built
            (fun x hx => hf x (hA'.members _ v xs (by simp) hv hi x hx)) h1) hfin
      · rw [construct_proxy _ _ _ hcore] at h
        split at h
        · cases h
        obtain ⟨a, _, h⟩ := ok_bind h
        simp only [pure, Except.pure] at h; cases h
        exact .leaf rfl hfin
    | _ => simp [construct] at h

/-- Every successful `from_dict` call has a derivation. -/
theorem built_of_fromDict {v : PyVal} {reg reg' : Registry} {t : RType}
    (h : fromDict v reg = .ok (t, reg')) : Built reg t reg' := by
  suffices H : ∀ (n : Nat) (v : PyVal), v.size ≤ n → ∀ reg t reg',
      fromDict v reg = .ok (t, reg') → Built reg t reg' from H v.size v (Nat.le_refl _) _ _ _ h
  intro n
  induction n with
  | zero => intro v h; have := v.size_pos; omega
  | succ n ih =>
    intro v hv reg t reg' h
    rw [fromDict_eq] at h
    obtain ⟨d0, h0, h⟩ := ok_bind h
    obtain ⟨d, hd, h⟩ := ok_bind h
    obtain ⟨⟨t', r1⟩, hc, h⟩ := ok_bind h
    have hA := argOK_prepare hv h0 hd
    have := finish_fst h
    subst this
    exact construct_built hA (fun x hx => ih x hx) hc h

end Recap
