import Verif.AvroLemmas
import Verif.Sealed

/-!
# The bounds on the recursion of the Avro converter are enough
-/

set_option autoImplicit false

namespace Recap.Avro

/-! ## Writing -/

theorem convertAll_ne_fuel {f : RType → Except PyErr PyVal} {ts : List RType}
    (h : ∀ t ∈ ts, f t ≠ .error .fuel) : convertAll f ts ≠ .error .fuel := by
  induction ts with
  | nil => simp [convertAll]
  | cons t ts ih =>
    simp only [convertAll]
    apply ne_fuel_bind (h t (by simp))
    intro d _
    apply ne_fuel_bind (ih (fun u hu => h u (by simp [hu])))
    intro ds _
    simp [pure, Except.pure]

theorem describe_ne_fuel (a : Attrs) : describe a ≠ .error .fuel := by
  unfold describe
  apply ne_fuel_bind
  · unfold aliasesOf
    (repeat' split) <;> simp
  · simp [pure, Except.pure]

theorem logicalSchema_ne_fuel (t : RType) : logicalSchema t ≠ .error .fuel := by
  cases t <;> simp only [logicalSchema] <;> (repeat' split) <;> simp

theorem leafSchema_ne_fuel (t : RType) : leafSchema t ≠ .error .fuel := by
  cases t <;> simp only [leafSchema, intSchema] <;> (repeat' split) <;> simp

theorem convertF_ne_fuel {live : Registry} (hl : SealedReg live) : ∀ (n : Nat) (t : RType),
    Loose t → weight (weightReg 0 live) t ≤ n → convertF live n t ≠ .error .fuel := by
  intro n
  induction n with
  | zero => intro t _ hw; have := weight_pos (weightReg 0 live) t; omega
  | succ n ih =>
    intro t hs hw
    unfold convertF
    apply ne_fuel_bind (describe_ne_fuel _)
    intro s _
    split
    · apply ne_fuel_bind (logicalSchema_ne_fuel _)
      simp [pure, Except.pure]
    · split
      · rename_i fs a _
        simp only [Loose, weight] at hs hw
        apply ne_fuel_bind (convertAll_ne_fuel fun t ht =>
          ih t (loose_mem hs t ht) (by have := weight_mem (l := weightReg 0 live) t ht; omega))
        simp [pure, Except.pure]
      · simp only [Loose, weight] at hs hw
        apply ne_fuel_bind (ih _ hs (by omega))
        simp [pure, Except.pure]
      · split
        · simp only [Loose, weight] at hs hw
          apply ne_fuel_bind (ih _ hs.2 (by omega))
          simp [pure, Except.pure]
        · simp
      · rename_i ts a _
        simp only [Loose, weight] at hs hw
        apply ne_fuel_bind (convertAll_ne_fuel fun t ht =>
          ih t (loose_mem hs t ht) (by have := weight_mem (l := weightReg 0 live) t ht; omega))
        simp [pure, Except.pure]
      · split
        · split
          · simp [pure, Except.pure]
          · apply ne_fuel_bind resolve_ne_fuel
            intro t ht
            obtain ⟨h1, h2⟩ := resolve_lighter hl hs ht
            apply ne_fuel_bind (ih t h1 (by omega))
            intro v _
            split <;> simp [pure, Except.pure]
        · simp
      · apply ne_fuel_bind (leafSchema_ne_fuel _)
        simp [pure, Except.pure]

/-- `from_recap` does not run out of its bound: its errors are those of the program. -/
theorem fromRecap_ne_fuel {live : Registry} {t : RType} (hl : SealedReg live) (ht : Loose t) :
    fromRecap live t ≠ .error .fuel := by
  unfold fromRecap
  apply ne_fuel_bind (convertF_ne_fuel hl _ t ht (Nat.le_refl _))
  intro v _
  split <;> simp [pure, Except.pure]

/-- In particular for every type and registry that `from_dict` made. -/
theorem fromRecap_fromDict_ne_fuel {v : PyVal} {live : Registry} {t : RType}
    (h : fromDict v newRegistry = .ok (t, live)) : fromRecap live t ≠ .error .fuel := by
  obtain ⟨h1, h2⟩ := (built_of_fromDict h).loose sealed_newRegistry
  exact fromRecap_ne_fuel h2 h1

/-! ## Reading -/

theorem parseAll_ne_fuel {f : PyVal → Option String → Registry → Except PyErr (RType × Registry)} {ns : Option String}
    {xs : List PyVal} {reg : Registry} (h : ∀ x ∈ xs, ∀ reg, f x ns reg ≠ .error .fuel) :
    parseAll f ns xs reg ≠ .error .fuel := by
  induction xs generalizing reg with
  | nil => simp [parseAll]
  | cons x xs ih =>
    simp only [parseAll]
    apply ne_fuel_bind (h x (by simp) reg)
    intro p _
    apply ne_fuel_bind (ih (fun y hy => h y (by simp [hy])))
    simp [pure, Except.pure]

theorem registered_ne_fuel (t : RType) (reg : Registry) : registered t reg ≠ .error .fuel := by
  unfold registered
  split
  · simp
  · apply ne_fuel_bind (registerAlias_ne_fuel _ _)
    simp [pure, Except.pure]

theorem header_ne_fuel (d : Dict) (ns : Option String) : header d ns ≠ .error .fuel := by
  unfold header
  apply ne_fuel_bind
  · unfold namespaceOf
    split <;> simp
  · intro q _
    split <;> simp [pure, Except.pure]

theorem parseLogical_ne_fuel (l : PyVal) (d e : Dict) : parseLogical l d e ≠ .error .fuel := by
  unfold parseLogical
  (repeat' split) <;> simp

theorem parseF_ne_fuel : ∀ (n : Nat) (v : PyVal) (ns : Option String) (reg : Registry), v.size ≤ n →
    parseF n v ns reg ≠ .error .fuel := by
  intro n
  induction n with
  | zero => intro v ns reg h; have := PyVal.size_pos v; omega
  | succ n ih =>
    intro v ns reg hn
    have key : ∀ f d ns, (∀ k x, Dict.get? d k = some x → ∀ y : PyVal, y.size ≤ x.size → ∀ ns reg,
        f y ns reg ≠ .error .fuel) → parseDict f d ns reg ≠ .error .fuel := by
      intro f d ns hd
      unfold parseDict
      apply ne_fuel_bind (header_ne_fuel _ _)
      intro p _
      extract_lets q al e logical
      split
      split
      · apply ne_fuel_bind (parseLogical_ne_fuel _ _ _)
        simp [pure, Except.pure]
      · have all : ∀ k x xs ns reg, Dict.get? d k = some x → x.iter = .ok xs →
            parseAll f ns xs reg ≠ .error .fuel := by
          intro k x xs ns reg hx hxs
          exact parseAll_ne_fuel fun y hy reg => hd k x hx y (by have := PyVal.size_iter hxs hy; omega) ns reg
        unfold parseType
        split
        · split
          · exact registered_ne_fuel _ _
          · unfold parseComplex
            extract_lets a
            split
            · (repeat' split) <;> first | exact registered_ne_fuel _ _ | simp
            split
            · split
              · rename_i x hx
                apply ne_fuel_bind (iter_ne_fuel _)
                intro xs hxs
                apply ne_fuel_bind (all _ _ _ _ _ hx hxs)
                intro q _
                exact registered_ne_fuel _ _
              · simp
            split
            · split
              · exact registered_ne_fuel _ _
              · simp
            split
            · split
              · rename_i x hx
                apply ne_fuel_bind (hd _ _ hx _ (Nat.le_refl _) _ _)
                intro q _
                exact registered_ne_fuel _ _
              · simp
            split
            · split
              · rename_i x hx
                apply ne_fuel_bind (hd _ _ hx _ (Nat.le_refl _) _ _)
                intro q _
                exact registered_ne_fuel _ _
              · simp
            split
            · split
              · rename_i x hx
                apply ne_fuel_bind (iter_ne_fuel _)
                intro xs hxs
                apply ne_fuel_bind (all _ _ _ _ _ hx hxs)
                intro q _
                exact registered_ne_fuel _ _
              · simp
            · simp
        · rename_i xs hx
          apply ne_fuel_bind (all _ _ xs _ _ hx rfl)
          intro q _
          exact registered_ne_fuel _ _
        · rename_i d' hx
          apply ne_fuel_bind (hd _ _ hx _ (Nat.le_refl _) _ _)
          simp [pure, Except.pure]
        · simp
    cases v with
    | str s =>
      rw [parseF, parseDict_short _ (fun _ _ _ => .error .valueError)]
      exact key _ _ _ fun k x _ y _ ns reg => by simp
    | dict d =>
      rw [parseF]
      refine key _ _ _ fun k x hx y hy ns reg => ih y ns reg ?_
      have := PyVal.size_lt_of_mem_dict (Dict.mem_of_get? hx)
      omega
    | list xs =>
      rw [parseF]
      split <;> simp
    | _ => simp [parseF]

/-- `to_recap` does not run out of its bound. -/
theorem toRecap_ne_fuel (v : PyVal) (ns : Option String) (reg : Registry) : toRecap v ns reg ≠ .error .fuel := by
  unfold toRecap
  apply ne_fuel_bind (parseF_ne_fuel _ _ _ _ (Nat.le_refl _))
  rintro ⟨t, reg'⟩ _
  cases t <;> simp [pure, Except.pure]

end Recap.Avro
