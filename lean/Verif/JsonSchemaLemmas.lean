import Verif.JsonSchemaSpec
import Verif.DictLemmas
import Verif.Built

/-!
# Lemmas about the JSON Schema converter
-/

set_option autoImplicit false

namespace Recap.Json

open Recap.Url Spec

variable {env : Env}

/-! ## Depth of the recursion -/

theorem parseAll_congr {f g : PyVal → Ids → Except PyErr (RType × Ids)} {xs : List PyVal}
    (h : ∀ x ∈ xs, ∀ ids, f x ids = g x ids) (ids : Ids) : parseAll f xs ids = parseAll g xs ids := by
  induction xs generalizing ids with
  | nil => rfl
  | cons x xs ih =>
    simp only [parseAll]
    rw [h x (by simp)]
    cases g x ids with
    | error e => rfl
    | ok r =>
      simp only [bind, Except.bind]
      rw [ih (fun y hy => h y (by simp [hy]))]

theorem parseProps_congr {f g : PyVal → Ids → Except PyErr (RType × Ids)} {req : PyVal} {ps : Dict}
    (h : ∀ kv ∈ ps, ∀ ids, f kv.2 ids = g kv.2 ids) (ids : Ids) :
    parseProps f req ps ids = parseProps g req ps ids := by
  induction ps generalizing ids with
  | nil => rfl
  | cons kv ps ih =>
    obtain ⟨k, x⟩ := kv
    simp only [parseProps]
    rw [show f x ids = g x ids from h (k, x) (by simp) ids]
    cases g x ids with
    | error e => rfl
    | ok r =>
      simp only [bind, Except.bind]
      cases req.containsStr k with
      | error e => rfl
      | ok b =>
        dsimp only
        rw [ih (fun y hy => h y (by simp [hy]))]

theorem size_get {d : Dict} {k : String} {v : PyVal} (h : Dict.get? d k = some v) :
    v.size < (PyVal.dict d).size := PyVal.size_lt_of_mem_dict (Dict.mem_of_get? h)

theorem size_list (xs : List PyVal) {x : PyVal} (h : x ∈ xs) : x.size < (PyVal.list xs).size :=
  PyVal.size_lt_of_mem h

theorem parseDict_congr {f g : PyVal → Ids → Except PyErr (RType × Ids)} {e d : Dict} {ids : Ids}
    (h : ∀ v, v.size < (PyVal.dict d).size → ∀ ids, f v ids = g v ids) :
    parseDict env f e d ids = parseDict env g e d ids := by
  have harr : parseDict.parseArray env f e d ids (Dict.get? d "items") =
      parseDict.parseArray env g e d ids (Dict.get? d "items") := by
    cases hi : Dict.get? d "items" with
    | none => rfl
    | some v => simp only [parseDict.parseArray, h v (size_get hi)]
  unfold parseDict
  split
  · rename_i xs hxs
    rw [parseAll_congr (fun x hx => h x (Nat.lt_trans (size_list xs hx) (size_get hxs)))]
  · cases hp : Dict.get? d "properties" with
    | none => exact harr
    | some props =>
      dsimp only
      split
      · split
        · rename_i props
          rw [parseProps_congr (fun kv hkv => h kv.2
            (Nat.lt_trans (PyVal.size_lt_of_mem_dict (k := kv.1) hkv) (size_get hp)))]
        · rfl
      · exact harr

theorem parseF_stable : ∀ (n m : Nat) (v : PyVal) (ids : Ids), v.size ≤ n → v.size ≤ m →
    parseF env n v ids = parseF env m v ids := by
  intro n
  induction n with
  | zero => intro m v ids h; have := v.size_pos; omega
  | succ n ih =>
    intro m v ids h1 h2
    cases m with
    | zero => have := v.size_pos; omega
    | succ m =>
      have key : ∀ e d ids, (schemaOf v = .dict d) →
          parseDict env (parseF env n) e d ids = parseDict env (parseF env m) e d ids := by
        intro e d ids hd
        by_cases hs : ∃ s, v = .str s
        · obtain ⟨s, rfl⟩ := hs
          cases hd
          simp [parseDict, parseDict.parseArray, Dict.get?]
        · apply parseDict_congr
          intro w hw ids
          have : v = .dict d := by
            cases v <;> simp_all [schemaOf]
          subst this
          exact ih m w ids (by omega) (by omega)
      simp only [parseF]
      cases hx : extraAttrs env (schemaOf v) ids with
      | error e => rfl
      | ok r =>
        simp only [bind, Except.bind]
        split
        · rename_i d hd
          exact key _ _ _ hd
        · rfl

theorem parse_eq (v : PyVal) (ids : Ids) : parse env v ids = (do
    let (e, ids) ← extraAttrs env (schemaOf v) ids
    match schemaOf v with
    | .dict d => parseDict env (parse env) e d ids
    | _ => .error .valueError) := by
  rw [parse, parseF_stable v.size (v.size + 1) v ids (Nat.le_refl _) (Nat.le_succ _), parseF]
  cases hx : extraAttrs env (schemaOf v) ids with
  | error e => rfl
  | ok r =>
    simp only [bind, Except.bind]
    by_cases hs : ∃ s, v = .str s
    · obtain ⟨s, rfl⟩ := hs
      simp [schemaOf, parseDict, parseDict.parseArray, Dict.get?]
    · split
      · rename_i d hd
        have : v = .dict d := by cases v <;> simp_all [schemaOf]
        subst this
        apply parseDict_congr
        intro w hw ids
        rw [parse]
        exact parseF_stable _ _ w ids (by omega) (Nat.le_refl _)
      · rename_i hne
        split
        · rename_i d hd; exact absurd hd (hne d)
        · rfl

end Recap.Json
