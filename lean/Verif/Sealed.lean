import Verif.Weight
import Verif.TypesState
import Verif.FuelLemmas2

/-!
# References in registries

A registry made by `register_alias` holds copies, whose references point to copies of the registry
and not to the registry itself.  So following references ends.
-/

set_option autoImplicit false

namespace Recap

mutual
/-- All references in the type point to copies of registries, in which the same holds. -/
def Sealed : RType → Prop
  | .list t _ _ _ => Sealed t
  | .map k t _ => Sealed k ∧ Sealed t
  | .struct fs _ => SealedAll fs
  | .union ts _ => SealedAll ts
  | .proxy .none _ => False
  | .proxy (some reg) _ => SealedReg reg
  | _ => True
def SealedAll : List RType → Prop
  | [] => True
  | t :: ts => Sealed t ∧ SealedAll ts
def SealedReg : List (String × RType) → Prop
  | [] => True
  | (_, t) :: ts => Sealed t ∧ SealedReg ts
end

mutual
/-- All references in the type point to the live registry or to copies of registries. -/
def Loose : RType → Prop
  | .list t _ _ _ => Loose t
  | .map k t _ => Loose k ∧ Loose t
  | .struct fs _ => LooseAll fs
  | .union ts _ => LooseAll ts
  | .proxy (some reg) _ => SealedReg reg
  | _ => True
def LooseAll : List RType → Prop
  | [] => True
  | t :: ts => Loose t ∧ LooseAll ts
end

mutual
theorem sealed_deepcopy {reg : Registry} (hr : SealedReg reg) :
    ∀ t : RType, Loose t → Sealed (t.deepcopy reg)
  | .list t _ _ _, h => by
    simp only [RType.deepcopy, Sealed, Loose] at *; exact sealed_deepcopy hr t h
  | .map k t _, h => by
    simp only [RType.deepcopy, Sealed, Loose] at *
    exact ⟨sealed_deepcopy hr k h.1, sealed_deepcopy hr t h.2⟩
  | .struct fs _, h => by
    simp only [RType.deepcopy, Sealed, Loose] at *; exact sealed_deepcopyAll hr fs h
  | .union ts _, h => by
    simp only [RType.deepcopy, Sealed, Loose] at *; exact sealed_deepcopyAll hr ts h
  | .proxy .none _, h => by simp only [RType.deepcopy, Sealed]; exact hr
  | .proxy (some r) _, h => by simp only [RType.deepcopy, Sealed, Loose] at *; exact h
  | .null _, _ => trivial
  | .bool _, _ => trivial
  | .int .., _ => trivial
  | .float .., _ => trivial
  | .string .., _ => trivial
  | .bytes .., _ => trivial
  | .enum .., _ => trivial
theorem sealed_deepcopyAll {reg : Registry} (hr : SealedReg reg) :
    ∀ ts : List RType, LooseAll ts → SealedAll (RType.deepcopyList reg ts)
  | [], _ => trivial
  | t :: ts, h => by
    simp only [RType.deepcopyList, SealedAll, LooseAll] at *
    exact ⟨sealed_deepcopy hr t h.1, sealed_deepcopyAll hr ts h.2⟩
end

mutual
theorem deepcopy_sealed (reg : Registry) : ∀ t : RType, Sealed t → t.deepcopy reg = t
  | .list t _ _ _, h => by
    simp only [RType.deepcopy, Sealed] at *; rw [deepcopy_sealed reg t h]
  | .map k t _, h => by
    simp only [RType.deepcopy, Sealed] at *
    rw [deepcopy_sealed reg k h.1, deepcopy_sealed reg t h.2]
  | .struct fs _, h => by
    simp only [RType.deepcopy, Sealed] at *; rw [deepcopy_sealedAll reg fs h]
  | .union ts _, h => by
    simp only [RType.deepcopy, Sealed] at *; rw [deepcopy_sealedAll reg ts h]
  | .proxy .none _, h => by simp only [Sealed] at h
  | .proxy (some r) _, h => by simp only [RType.deepcopy]
  | .null _, _ => rfl
  | .bool _, _ => rfl
  | .int .., _ => rfl
  | .float .., _ => rfl
  | .string .., _ => rfl
  | .bytes .., _ => rfl
  | .enum .., _ => rfl
theorem deepcopy_sealedAll (reg : Registry) : ∀ ts : List RType, SealedAll ts → RType.deepcopyList reg ts = ts
  | [], _ => rfl
  | t :: ts, h => by
    simp only [RType.deepcopyList, SealedAll] at *
    rw [deepcopy_sealed reg t h.1, deepcopy_sealedAll reg ts h.2]
end

mutual
theorem weight_sealed (l : Nat) : ∀ t : RType, Sealed t → weight l t = weight 0 t
  | .list t _ _ _, h => by
    simp only [weight, Sealed] at *; rw [weight_sealed l t h]
  | .map k t _, h => by
    simp only [weight, Sealed] at *
    rw [weight_sealed l k h.1, weight_sealed l t h.2]
  | .struct fs _, h => by
    simp only [weight, Sealed] at *; rw [weight_sealedAll l fs h]
  | .union ts _, h => by
    simp only [weight, Sealed] at *; rw [weight_sealedAll l ts h]
  | .proxy .none _, h => by simp only [Sealed] at h
  | .proxy (some r) _, h => by simp only [weight, Sealed] at *; rw [weight_sealedReg l r h]
  | .null _, _ => by simp only [weight]
  | .bool _, _ => by simp only [weight]
  | .int .., _ => by simp only [weight]
  | .float .., _ => by simp only [weight]
  | .string .., _ => by simp only [weight]
  | .bytes .., _ => by simp only [weight]
  | .enum .., _ => by simp only [weight]
theorem weight_sealedAll (l : Nat) : ∀ ts : List RType, SealedAll ts → weightAll l ts = weightAll 0 ts
  | [], _ => rfl
  | t :: ts, h => by
    simp only [weightAll, SealedAll] at *
    rw [weight_sealed l t h.1, weight_sealedAll l ts h.2]
theorem weight_sealedReg (l : Nat) : ∀ ts : List (String × RType), SealedReg ts →
    weightReg l ts = weightReg 0 ts
  | [], _ => rfl
  | (_, t) :: ts, h => by
    simp only [weightReg, SealedReg] at *
    rw [weight_sealed l t h.1, weight_sealedReg l ts h.2]
end

theorem sealedReg_find {reg : Registry} {s : String} {t : RType} (hr : SealedReg reg)
    (h : Registry.find? reg s = some t) : Sealed t ∧ weight 0 t ≤ weightReg 0 reg := by
  induction reg with
  | nil => simp [Registry.find?] at h
  | cons kt reg ih =>
    obtain ⟨k, u⟩ := kt
    simp only [SealedReg, Registry.find?, weightReg] at *
    split at h
    · cases h; exact ⟨hr.1, by omega⟩
    · have := ih hr.2 h
      exact ⟨this.1, by omega⟩

theorem sealed_withAttrs {t : RType} (a : Attrs) : Sealed (t.withAttrs a) ↔ Sealed t := by
  cases t <;> try rfl
  rename_i r _
  cases r <;> rfl

theorem weight_withAttrs (l : Nat) {t : RType} (a : Attrs) : weight l (t.withAttrs a) = weight l t := by
  cases t <;> try rfl
  rename_i r _
  cases r <;> rfl

theorem applyOverride_sealed {t t' : RType} {k : String} {v : PyVal}
    (h : applyOverride t k v = .ok t') : (Sealed t' ↔ Sealed t) ∧ ∀ l, weight l t' = weight l t := by
  unfold applyOverride at h
  extract_lets a at h
  split at h
  · cases h
  · split at h
    · cases h; exact ⟨sealed_withAttrs _, fun l => weight_withAttrs l _⟩
    · split at h
      · cases h; exact ⟨sealed_withAttrs _, fun l => weight_withAttrs l _⟩
      · by_cases hd : k = "doc"
        · rw [if_pos hd] at h
          cases h; exact ⟨sealed_withAttrs _, fun l => weight_withAttrs l _⟩
        · rw [if_neg hd] at h
          cases t with
          | proxy r a => cases h; exact ⟨sealed_withAttrs _, fun l => weight_withAttrs l _⟩
          | null a => cases h; exact ⟨sealed_withAttrs _, fun l => weight_withAttrs l _⟩
          | bool a => cases h; exact ⟨sealed_withAttrs _, fun l => weight_withAttrs l _⟩
          | _ =>
            simp only at h
            (repeat' split at h) <;> cases h <;>
              exact ⟨by simp only [Sealed], fun l => by simp only [weight]⟩

theorem applyOverrides_sealed {t t' : RType} {e : Dict} (h : applyOverrides t e = .ok t') :
    (Sealed t' ↔ Sealed t) ∧ ∀ l, weight l t' = weight l t := by
  induction e generalizing t with
  | nil => cases h; exact ⟨Iff.rfl, fun _ => rfl⟩
  | cons kv e ih =>
    obtain ⟨k, v⟩ := kv
    simp only [applyOverrides] at h
    obtain ⟨t1, h1, h⟩ := ok_bind h
    obtain ⟨h2, h3⟩ := applyOverride_sealed h1
    obtain ⟨h4, h5⟩ := ih h
    exact ⟨h4.trans h2, fun l => (h5 l).trans (h3 l)⟩

/-- What a reference resolves to is no deeper than its registry. -/
theorem resolve_sealed {live : Registry} {r : Option (List (String × RType))} {a : Attrs} {t : RType}
    (hr : SealedReg (r.getD live)) (h : resolve live r a = .ok t) :
    Sealed t ∧ ∀ l, weight l t ≤ weightReg 0 (r.getD live) := by
  unfold resolve at h
  simp only at h
  obtain ⟨u, hu, h⟩ := ok_bind h
  unfold Registry.fromAlias at hu
  split at hu
  · split at hu
    · rename_i t0 hf
      cases hu
      obtain ⟨h1, h2⟩ := sealedReg_find hr hf
      rw [deepcopy_sealed _ _ h1] at h
      obtain ⟨h3, h4⟩ := applyOverrides_sealed h
      refine ⟨h3.mpr h1, fun l => ?_⟩
      rw [h4 l, weight_sealed l _ h1]
      exact h2
    · cases hu
  · cases hu

/-! ## Registries made by `from_dict` -/

theorem sealedReg_append {a b : List (String × RType)} : SealedReg (a ++ b) ↔ SealedReg a ∧ SealedReg b := by
  induction a with
  | nil => simp [SealedReg]
  | cons kt a ih =>
    obtain ⟨k, t⟩ := kt
    simp only [List.cons_append, SealedReg, ih, and_assoc]

theorem sealedReg_register {reg reg' : Registry} {t : RType} (hr : SealedReg reg) (ht : Loose t)
    (h : Registry.registerAlias reg t = .ok reg') : SealedReg reg' := by
  obtain ⟨s, -, -, -, rfl⟩ := registerAlias_ok h
  refine sealedReg_append.mpr ⟨hr, ?_, trivial⟩
  exact (sealed_withAttrs _).mpr (sealed_deepcopy hr t ht)

theorem sealedReg_finish {reg reg' : Registry} {t t' : RType} (hr : SealedReg reg) (ht : Loose t)
    (h : finish t reg = .ok (t', reg')) : SealedReg reg' := by
  unfold finish at h
  obtain ⟨_, _, h⟩ := ok_bind h
  split at h
  · obtain ⟨r, hr', h⟩ := ok_bind h
    simp only [pure, Except.pure] at h; cases h
    exact sealedReg_register hr ht hr'
  · simp only [pure, Except.pure] at h; cases h
    exact hr

theorem loose_leaf {t : RType} (h : t.isLeaf) : Loose t := by
  cases t <;> simp only [RType.isLeaf, Loose] at *
  subst h
  simp only [Loose]

mutual
theorem Built.loose {reg t reg'} : Built reg t reg' → SealedReg reg → Loose t ∧ SealedReg reg'
  | .leaf hl h, hr => ⟨loose_leaf hl, sealedReg_finish hr (loose_leaf hl) h⟩
  | .list h1 h2, hr => by
    obtain ⟨h3, h4⟩ := h1.loose hr
    have : Loose _ := h3
    exact ⟨by simp only [Loose]; exact h3, sealedReg_finish h4 (by simp only [Loose]; exact h3) h2⟩
  | .map h1 h2 h3, hr => by
    obtain ⟨h4, h5⟩ := h1.loose hr
    obtain ⟨h6, h7⟩ := h2.loose h5
    exact ⟨by simp only [Loose]; exact ⟨h4, h6⟩,
      sealedReg_finish h7 (by simp only [Loose]; exact ⟨h4, h6⟩) h3⟩
  | .struct h1 h2, hr => by
    obtain ⟨h3, h4⟩ := h1.loose hr
    exact ⟨by simp only [Loose]; exact h3, sealedReg_finish h4 (by simp only [Loose]; exact h3) h2⟩
  | .union h1 h2, hr => by
    obtain ⟨h3, h4⟩ := h1.loose hr
    exact ⟨by simp only [Loose]; exact h3, sealedReg_finish h4 (by simp only [Loose]; exact h3) h2⟩
theorem BuiltAll.loose {reg ts reg'} : BuiltAll reg ts reg' → SealedReg reg → LooseAll ts ∧ SealedReg reg'
  | .nil, hr => ⟨trivial, hr⟩
  | .cons h1 h2, hr => by
    obtain ⟨h3, h4⟩ := h1.loose hr
    obtain ⟨h5, h6⟩ := h2.loose h4
    exact ⟨by simp only [LooseAll]; exact ⟨h3, h5⟩, h6⟩
end

theorem sealed_newRegistry : SealedReg newRegistry := by
  simp [newRegistry, builtinAliases, SealedReg, Sealed]

mutual
theorem loose_of_sealed : ∀ t : RType, Sealed t → Loose t
  | .list t _ _ _, h => by simp only [Sealed, Loose] at *; exact loose_of_sealed t h
  | .map k t _, h => by
    simp only [Sealed, Loose] at *; exact ⟨loose_of_sealed k h.1, loose_of_sealed t h.2⟩
  | .struct fs _, h => by simp only [Sealed, Loose] at *; exact looseAll_of_sealed fs h
  | .union ts _, h => by simp only [Sealed, Loose] at *; exact looseAll_of_sealed ts h
  | .proxy .none _, h => by simp only [Sealed] at h
  | .proxy (some r) _, h => by simp only [Sealed, Loose] at *; exact h
  | .null _, _ => trivial
  | .bool _, _ => trivial
  | .int .., _ => trivial
  | .float .., _ => trivial
  | .string .., _ => trivial
  | .bytes .., _ => trivial
  | .enum .., _ => trivial
theorem looseAll_of_sealed : ∀ ts : List RType, SealedAll ts → LooseAll ts
  | [], _ => trivial
  | t :: ts, h => by
    simp only [SealedAll, LooseAll] at *
    exact ⟨loose_of_sealed t h.1, looseAll_of_sealed ts h.2⟩
end

theorem loose_mem {ts : List RType} (h : LooseAll ts) : ∀ t ∈ ts, Loose t := by
  induction ts with
  | nil => simp
  | cons t ts ih =>
    simp only [LooseAll] at h
    intro u hu
    rcases List.mem_cons.mp hu with rfl | hu
    · exact h.1
    · exact ih h.2 u hu

theorem weight_mem {l : Nat} {ts : List RType} : ∀ t ∈ ts, weight l t ≤ weightAll l ts := by
  induction ts with
  | nil => simp
  | cons t ts ih =>
    simp only [weightAll]
    intro u hu
    rcases List.mem_cons.mp hu with rfl | hu
    · omega
    · have := ih u hu; omega

theorem weight_pos (l : Nat) (t : RType) : 0 < weight l t := by
  cases t with
  | proxy r a => cases r <;> simp only [weight] <;> omega
  | _ => simp only [weight]; omega

theorem applyOverrides_ne_fuel {t : RType} {e : Dict} : applyOverrides t e ≠ .error .fuel := by
  induction e generalizing t with
  | nil => simp [applyOverrides]
  | cons kv e ih =>
    obtain ⟨k, v⟩ := kv
    simp only [applyOverrides]
    apply ne_fuel_bind
    · unfold applyOverride
      extract_lets a
      repeat' split
      all_goals simp
    · intro t' _; exact ih

theorem resolve_ne_fuel {live : Registry} {r : Option (List (String × RType))} {a : Attrs} :
    resolve live r a ≠ .error .fuel := by
  unfold resolve
  apply ne_fuel_bind
  · unfold Registry.fromAlias
    repeat' split
    all_goals simp
  · intro t _; exact applyOverrides_ne_fuel

/-- A reference resolves to something lighter than itself. -/
theorem resolve_lighter {live : Registry} {r : Option (List (String × RType))} {a : Attrs} {t : RType}
    (hl : SealedReg live) (hs : Loose (.proxy r a)) (h : resolve live r a = .ok t) :
    Loose t ∧ weight (weightReg 0 live) t < weight (weightReg 0 live) (.proxy r a) := by
  have hr : SealedReg (r.getD live) := by
    cases r with
    | none => exact hl
    | some r => simp only [Loose] at hs; exact hs
  obtain ⟨h1, h2⟩ := resolve_sealed hr h
  refine ⟨loose_of_sealed t h1, ?_⟩
  have h3 := h2 (weightReg 0 live)
  cases r with
  | none => simp only [weight, Option.getD_none] at *; omega
  | some r =>
    simp only [weight, Option.getD_some] at *
    rw [weight_sealedReg _ r hr]; omega

end Recap
