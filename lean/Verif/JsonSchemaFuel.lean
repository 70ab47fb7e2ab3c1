import Verif.JsonSchema
import Verif.Sealed

/-!
# The bounds on the recursion of the JSON Schema converter are enough
-/

set_option autoImplicit false

namespace Recap.Json

theorem convertAll_ne_fuel {f : RType → Except PyErr Dict} {ts : List RType}
    (h : ∀ t ∈ ts, f t ≠ .error .fuel) : convertAll f ts ≠ .error .fuel := by
  induction ts with
  | nil => simp [convertAll]
  | cons t ts ih =>
    simp only [convertAll]
    apply ne_fuel_bind (h t (by simp))
    intro d _
    apply ne_fuel_bind (ih (fun u hu => h u (by simp [hu])))
    intro ds _
    simp [pure, Except.pure]

theorem convertFields_ne_fuel {f : RType → Except PyErr Dict} {ts : List RType} {ps : Dict} {rs : List PyVal}
    (h : ∀ t ∈ ts, f t ≠ .error .fuel) : convertFields f ts ps rs ≠ .error .fuel := by
  induction ts generalizing ps rs with
  | nil => simp [convertFields]
  | cons t ts ih =>
    simp only [convertFields]
    split
    · split
      · simp
      · apply ne_fuel_bind (h t (by simp))
        intro d _
        exact ih (fun u hu => h u (by simp [hu]))
    · split <;> simp
    · simp

theorem isBuiltin_ne_fuel (a : PyVal) : isBuiltin a ≠ .error .fuel := by
  unfold isBuiltin
  split <;> simp

theorem convertF_ne_fuel {live : Registry} (hl : SealedReg live) : ∀ (n : Nat) (b : Bool) (t : RType),
    Loose t → weight (weightReg 0 live) t ≤ n → convertF live n b t ≠ .error .fuel := by
  intro n
  induction n with
  | zero => intro b t _ hw; have := weight_pos (weightReg 0 live) t; omega
  | succ n ih =>
    intro b t hs hw
    unfold convertF
    extract_lets td
    split
    · simp
    · split
      · rename_i ts a _
        simp only [Loose, weight] at hs hw
        have hm : ∀ t ∈ ts, convertF live n true t ≠ .error .fuel := fun t ht =>
          ih true t (loose_mem hs t ht) (by have := weight_mem (l := weightReg 0 live) t ht; omega)
        split
        · split
          · rename_i u hu
            apply ne_fuel_bind (hm u (List.mem_filter.mp (by rw [hu]; simp : u ∈ List.filter _ ts)).1)
            simp [pure, Except.pure]
          · simp
        · apply ne_fuel_bind (convertAll_ne_fuel hm)
          simp [pure, Except.pure]
      · rename_i fs a _
        simp only [Loose, weight] at hs hw
        have hm : ∀ t ∈ fs, convertF live n true t ≠ .error .fuel := fun t ht =>
          ih true t (loose_mem hs t ht) (by have := weight_mem (l := weightReg 0 live) t ht; omega)
        apply ne_fuel_bind (convertFields_ne_fuel hm)
        simp [pure, Except.pure]
      · simp only [Loose, weight] at hs hw
        apply ne_fuel_bind (ih true _ hs (by omega))
        simp [pure, Except.pure]
      · simp only [Loose, weight] at hs hw
        apply ne_fuel_bind (ih true _ hs.2 (by omega))
        simp [pure, Except.pure]
      all_goals try simp
      rename_i r a _
      apply ne_fuel_bind (isBuiltin_ne_fuel _)
      intro c _
      split
      · apply ne_fuel_bind resolve_ne_fuel
        intro t ht
        obtain ⟨h1, h2⟩ := resolve_lighter hl hs ht
        exact ih true t h1 (by omega)
      · split <;> simp [pure, Except.pure]

theorem ownDefs_ne_fuel {f : Bool → RType → Except PyErr Dict} {t : RType}
    (h : f false t ≠ .error .fuel) : ownDefs f t ≠ .error .fuel := by
  unfold ownDefs
  apply ne_fuel_bind (isBuiltin_ne_fuel _)
  intro c _
  split
  · split
    · apply ne_fuel_bind h
      simp [pure, Except.pure]
    · simp
  · simp [pure, Except.pure]

mutual
theorem aliasDefs_ne_fuel {f : Bool → RType → Except PyErr Dict} {l m : Nat}
    (h : ∀ t, Loose t → weight l t ≤ m → f false t ≠ .error .fuel) :
    ∀ t, Loose t → weight l t ≤ m → aliasDefs f t ≠ .error .fuel
  | .struct fs a, hs, hw => by
    simp only [aliasDefs]
    apply ne_fuel_bind (ownDefs_ne_fuel (h _ hs hw))
    intro own _
    simp only [Loose, weight] at hs hw
    exact aliasDefsAll_ne_fuel h fs own hs (by omega)
  | .union ts a, hs, hw => by
    simp only [aliasDefs]
    apply ne_fuel_bind (ownDefs_ne_fuel (h _ hs hw))
    intro own _
    simp only [Loose, weight] at hs hw
    exact aliasDefsAll_ne_fuel h ts own hs (by omega)
  | .list t _ _ _, hs, hw => by
    simp only [aliasDefs]
    apply ne_fuel_bind (ownDefs_ne_fuel (h _ hs hw))
    intro own _
    simp only [Loose, weight] at hs hw
    apply ne_fuel_bind (aliasDefs_ne_fuel h t hs (by omega))
    simp [pure, Except.pure]
  | .map k t _, hs, hw => by
    simp only [aliasDefs]
    apply ne_fuel_bind (ownDefs_ne_fuel (h _ hs hw))
    intro own _
    simp only [Loose, weight] at hs hw
    apply ne_fuel_bind (aliasDefs_ne_fuel h t hs.2 (by omega))
    simp [pure, Except.pure]
  | .proxy r a, hs, hw => by simp only [aliasDefs]; exact ownDefs_ne_fuel (h _ hs hw)
  | .null a, hs, hw => by simp only [aliasDefs]; exact ownDefs_ne_fuel (h _ hs hw)
  | .bool a, hs, hw => by simp only [aliasDefs]; exact ownDefs_ne_fuel (h _ hs hw)
  | .int b s a, hs, hw => by simp only [aliasDefs]; exact ownDefs_ne_fuel (h _ hs hw)
  | .float b a, hs, hw => by simp only [aliasDefs]; exact ownDefs_ne_fuel (h _ hs hw)
  | .string b s a, hs, hw => by simp only [aliasDefs]; exact ownDefs_ne_fuel (h _ hs hw)
  | .bytes b s a, hs, hw => by simp only [aliasDefs]; exact ownDefs_ne_fuel (h _ hs hw)
  | .enum s a, hs, hw => by simp only [aliasDefs]; exact ownDefs_ne_fuel (h _ hs hw)
theorem aliasDefsAll_ne_fuel {f : Bool → RType → Except PyErr Dict} {l m : Nat}
    (h : ∀ t, Loose t → weight l t ≤ m → f false t ≠ .error .fuel) :
    ∀ (ts : List RType) (defs : Dict), LooseAll ts → weightAll l ts ≤ m →
      aliasDefsAll f ts defs ≠ .error .fuel
  | [], defs, _, _ => by simp [aliasDefsAll]
  | t :: ts, defs, hs, hw => by
    simp only [aliasDefsAll]
    simp only [LooseAll, weightAll] at hs hw
    apply ne_fuel_bind (aliasDefs_ne_fuel h t hs.1 (by omega))
    intro ds _
    exact aliasDefsAll_ne_fuel h ts _ hs.2 (by omega)
end

/-- `from_recap` does not run out of its bound: its errors are those of the program. -/
theorem fromRecap_ne_fuel {live : Registry} {t : RType} (hl : SealedReg live) (ht : Loose t) :
    fromRecap live t ≠ .error .fuel := by
  unfold fromRecap
  extract_lets f
  apply ne_fuel_bind (convertF_ne_fuel hl _ true t ht (Nat.le_refl _))
  intro d _
  apply ne_fuel_bind
  · exact aliasDefs_ne_fuel (fun u hu hw => convertF_ne_fuel hl _ false u hu hw) t ht (Nat.le_refl _)
  · intro defs _
    simp [pure, Except.pure]

/-- In particular for every type and registry that `from_dict` made, in one go. -/
theorem fromRecap_fromDict_ne_fuel {v : PyVal} {live : Registry} {t : RType}
    (h : fromDict v newRegistry = .ok (t, live)) : fromRecap live t ≠ .error .fuel := by
  obtain ⟨h1, h2⟩ := (built_of_fromDict h).loose sealed_newRegistry
  exact fromRecap_ne_fuel h2 h1

end Recap.Json
