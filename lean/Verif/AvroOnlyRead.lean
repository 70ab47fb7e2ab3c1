import Verif.AvroOnlySpec
import Verif.AvroDataRead

/-!
# Lemmas about the values of what is read of an Avro schema (C136)
-/

set_option autoImplicit false

namespace Recap.AvroData

open Avro.Spec (IntValue Header target Other HasType Around root added)
open Values (Val)
open Recap.Avro

/-! ## Values of types with references -/

theorem withAttrs_back (t : RType) (b : Attrs) : (t.withAttrs b).withAttrs t.attrs = t := by cases t <;> rfl

theorem attrs_withAttrs (t : RType) (b : Attrs) : (t.withAttrs b).attrs = b := by cases t <;> rfl

theorem holdsIn_of_withAttrs {reg : Registry} {t : RType} {x : Val} {b : Attrs} (h : HoldsIn reg (t.withAttrs b) x)
    (hd : Direct t) (hs : Same t.attrs b) : HoldsIn reg t x := by
  have := holdsIn_withAttrs (b := t.attrs) h (direct_withAttrs hd)
    ⟨by rw [attrs_withAttrs, hs.logical], fun k hk => by rw [attrs_withAttrs, hs.extra k hk]⟩
  rwa [withAttrs_back] at this

theorem holdsIn_of_deepcopy {r : Registry} {u : RType} {x : Val} (h : HoldsIn r u x) (reg : Registry) (t : RType)
    (hu : u = t.deepcopy reg) : HoldsIn reg t x := by
  induction h generalizing t with
  | leaf g1 g2 =>
    rename_i r u x
    have : u = t ∨ ∃ a b, u = .proxy a b := by
      cases t with
      | list => subst hu; simp [RType.deepcopy, Recap.Spec.children] at g1
      | map => subst hu; simp [RType.deepcopy, Recap.Spec.children] at g1
      | struct fs a =>
        subst hu
        rw [RType.deepcopy, deepcopyList_map] at g1 ⊢
        simp only [Recap.Spec.children, List.map_eq_nil_iff] at g1
        subst g1
        exact .inl rfl
      | union fs a =>
        subst hu
        rw [RType.deepcopy, deepcopyList_map] at g1 ⊢
        simp only [Recap.Spec.children, List.map_eq_nil_iff] at g1
        subst g1
        exact .inl rfl
      | proxy r' a => cases r' <;> simp [RType.deepcopy] at hu <;> exact .inr ⟨_, _, hu⟩
      | _ => subst hu; exact .inl (by simp [RType.deepcopy])
    rcases this with rfl | ⟨a, b, rfl⟩
    · exact .leaf g1 g2
    · cases g2
  | list _ ih =>
    cases t with
    | list t' =>
      rw [RType.deepcopy] at hu
      cases hu
      exact .list fun x hx => ih x hx _ rfl
    | proxy r' a => cases r' <;> simp [RType.deepcopy] at hu
    | _ => simp [RType.deepcopy] at hu
  | map _ _ ih1 ih2 =>
    cases t with
    | map =>
      rw [RType.deepcopy] at hu
      cases hu
      exact .map (fun x hx => ih1 x hx _ rfl) fun x hx => ih2 x hx _ rfl
    | proxy r' a => cases r' <;> simp [RType.deepcopy] at hu
    | _ => simp [RType.deepcopy] at hu
  | struct g1 _ ih =>
    cases t with
    | struct fs =>
      rw [RType.deepcopy, deepcopyList_map] at hu
      cases hu
      refine .struct (by simpa using g1) fun i f x hf hx => ih i (f.deepcopy reg) x ?_ hx f rfl
      rw [List.getElem?_map, hf]; rfl
    | proxy r' a => cases r' <;> simp [RType.deepcopy] at hu
    | _ => simp [RType.deepcopy] at hu
  | union g1 _ ih =>
    cases t with
    | union fs =>
      rw [RType.deepcopy, deepcopyList_map] at hu
      cases hu
      obtain ⟨t', h1, h2⟩ := List.mem_map.mp g1
      exact .union h1 (ih t' h2.symm)
    | proxy r' a => cases r' <;> simp [RType.deepcopy] at hu
    | _ => simp [RType.deepcopy] at hu
  | @reference reg' r' a t' x g1 g2 _ =>
    cases t with
    | proxy r a' =>
      cases r with
      | none =>
        rw [RType.deepcopy] at hu
        cases hu
        exact .reference (r := .none) g1 g2
      | some r =>
        have : (RType.proxy (some r) a').deepcopy reg = .proxy (some r) a' := by simp [RType.deepcopy]
        rw [this] at hu
        cases hu
        exact .reference (r := some r) g1 g2
    | _ => simp [RType.deepcopy] at hu

theorem holdsIn_of_stored {reg r : Registry} {t : RType} {x : Val} (h : HoldsIn r (Registry.stored reg t) x)
    (hd : Direct t) : HoldsIn reg t x := by
  refine holdsIn_of_deepcopy (holdsIn_of_withAttrs h (direct_deepcopy hd) ⟨by rw [attrs_deepcopy], fun k hk => ?_⟩) reg t rfl
  rw [attrs_deepcopy]
  exact Dict.get?_erase_ne _ (by rintro rfl; revert hk; decide)

theorem holdsIn_of_reference {reg : Registry} {a : Attrs} {s : String} {u : RType} {x : Val} (ha : a.alias = .str s)
    (he : ∀ k ∈ Dict.keys a.extra, k = "name" ∨ k = "default") (hf : Registry.find? reg s = some u)
    (hc : u.deepcopy reg = u) (hd : Direct u) (h : HoldsIn reg (.proxy .none a) x) : HoldsIn reg u x := by
  obtain ⟨b, h1, h2⟩ := overrides_same a.extra u he
  cases h with
  | leaf _ h => cases h
  | reference h3 h4 =>
    simp only [resolve, Option.getD_none, Registry.fromAlias, ha, hf, bind, Except.bind, hc, h1] at h3
    cases h3
    exact holdsIn_of_withAttrs h4 hd h2

/-! ## Data with shorter byte strings -/

/-- The data of a schema, where a `fixed` may have fewer bytes than its size. -/
inductive Loose (env : Env) : Option String → PyVal → Val → Prop
  | primitiveName {ns s x} : Primitive s x → Loose env ns (.str s) x
  | reference {ns s ns' v x} : Other s → lookup env (target ns s) = some (ns', v) → Loose env ns' v x →
      Loose env ns (.str s) x
  | union {ns vs v x} : v ∈ vs → Loose env ns v x → Loose env ns (.list vs) x
  | primitive {ns d s x} : Is d s → Unannotated d → Primitive s x → Loose env ns (.dict d) x
  | logical {ns d l x} : Dict.get? d "logicalType" = some (.str l) → Applies d l → Logical d l x →
      Loose env ns (.dict d) x
  | fixed {ns d} {m n : Nat} : Is d "fixed" → Unannotated d → Dict.get? d "size" = some (.int n) → m ≤ n →
      Loose env ns (.dict d) (.bytes m)
  | enum {ns d xs s} : Is d "enum" → Dict.get? d "symbols" = some (.list xs) → .str s ∈ xs →
      Loose env ns (.dict d) (.str s)
  | array {ns d v xs} : Is d "array" → Dict.get? d "items" = some v → (∀ x ∈ xs, Loose env ns v x) →
      Loose env ns (.dict d) (.list xs)
  | map {ns d v} {ps : List (Val × Val)} : Is d "map" → Dict.get? d "values" = some v →
      (∀ p ∈ ps, Primitive "string" (Prod.fst p)) → (∀ p ∈ ps, Loose env ns v (Prod.snd p)) →
      Loose env ns (.dict d) (.map ps)
  | record {ns d name q vs ws xs} : Is d "record" → Header ns d name q →
      Dict.get? d "fields" = some (.list vs) → FieldTypes vs ws → ws.length = xs.length →
      (∀ (i : Nat) w x, ws[i]? = some w → xs[i]? = some x → Loose env q w x) →
      Loose env ns (.dict d) (.struct xs)

/-- A list of what exists for each element. -/
theorem choose_list {α β : Type} (P : α → β → Prop) (xs : List α) (h : ∀ (i : Nat) x, xs[i]? = some x → ∃ y, P x y) :
    ∃ ys : List β, xs.length = ys.length ∧ ∀ (i : Nat) x y, xs[i]? = some x → ys[i]? = some y → P x y := by
  induction xs with
  | nil => exact ⟨[], rfl, by simp⟩
  | cons x xs ih =>
    obtain ⟨y, hy⟩ := h 0 x rfl
    obtain ⟨ys, h1, h2⟩ := ih fun i x' hx => h (i + 1) x' (by simpa using hx)
    refine ⟨y :: ys, by simp [h1], fun i x' y' hx' hy' => ?_⟩
    cases i with
    | zero => simp at hx' hy'; subst hx' hy'; exact hy
    | succ i => exact h2 i x' y' (by simpa using hx') (by simpa using hy')

theorem mem_getElem? {α : Type} {xs : List α} {x : α} (h : x ∈ xs) : ∃ i : Nat, xs[i]? = some x :=
  List.mem_iff_getElem?.mp h

theorem loose_shorter {env : Env} {ns : Option String} {v : PyVal} {x : Val} (h : Loose env ns v x) :
    ∃ y, Shorter x y ∧ Datum env ns v y := by
  induction h with
  | primitiveName h => exact ⟨_, .same, .primitiveName h⟩
  | reference h1 h2 _ ih =>
    obtain ⟨y, g1, g2⟩ := ih
    exact ⟨y, g1, .reference h1 h2 g2⟩
  | union h1 _ ih =>
    obtain ⟨y, g1, g2⟩ := ih
    exact ⟨y, g1, .union h1 g2⟩
  | primitive h1 h2 h3 => exact ⟨_, .same, .primitive h1 h2 h3⟩
  | logical h1 h2 h3 => exact ⟨_, .same, .logical h1 h2 h3⟩
  | fixed h1 h2 h3 h4 => exact ⟨_, .bytes h4, .fixed h1 h2 h3⟩
  | enum h1 h2 h3 => exact ⟨_, .same, .enum h1 h2 h3⟩
  | @array ns d v xs h1 h2 _ ih =>
    obtain ⟨ys, g1, g2⟩ := choose_list (fun x y => Shorter x y ∧ Datum env ns v y) xs
      fun i x hx => ih x (List.mem_of_getElem? hx)
    refine ⟨.list ys, .list g1 fun i x y hx hy => (g2 i x y hx hy).1, .array h1 h2 fun y hy => ?_⟩
    obtain ⟨i, hi⟩ := mem_getElem? hy
    have hl : i < xs.length := by have := (List.getElem?_eq_some_iff.mp hi).1; omega
    exact (g2 i _ y (List.getElem?_eq_getElem hl) hi).2
  | @map ns d v ps h1 h2 h3 _ ih =>
    obtain ⟨qs, g1, g2⟩ := choose_list (fun (p q : Val × Val) => p.1 = q.1 ∧ Shorter p.2 q.2 ∧ Datum env ns v q.2) ps
      fun i p hp => by
        obtain ⟨y, k1, k2⟩ := ih p (List.mem_of_getElem? hp)
        exact ⟨(p.1, y), rfl, k1, k2⟩
    have back : ∀ q ∈ qs, ∃ p ∈ ps, p.1 = q.1 ∧ Datum env ns v q.2 := by
      intro q hq
      obtain ⟨i, hi⟩ := mem_getElem? hq
      have hl : i < ps.length := by have := (List.getElem?_eq_some_iff.mp hi).1; omega
      have := g2 i _ q (List.getElem?_eq_getElem hl) hi
      exact ⟨ps[i], List.getElem_mem hl, this.1, this.2.2⟩
    refine ⟨.map qs, .map ?_ fun i p q hp hq => (g2 i p q hp hq).2.1, .map h1 h2 (fun q hq => ?_) fun q hq => ?_⟩
    · apply List.ext_getElem?
      intro i
      rw [List.getElem?_map, List.getElem?_map]
      by_cases hi : i < ps.length
      · rw [List.getElem?_eq_getElem hi, List.getElem?_eq_getElem (g1 ▸ hi)]
        simp only [Option.map_some]
        rw [(g2 i _ _ (List.getElem?_eq_getElem hi) (List.getElem?_eq_getElem (g1 ▸ hi))).1]
      · rw [List.getElem?_eq_none (by omega), List.getElem?_eq_none (by omega)]
    · obtain ⟨p, hp, k1, -⟩ := back q hq
      exact k1 ▸ h3 p hp
    · obtain ⟨p, hp, -, k2⟩ := back q hq
      exact k2
  | @record ns d name q vs ws xs h1 h2 h3 h4 h5 _ ih =>
    obtain ⟨ys, g1, g2⟩ := choose_list (fun (wx : PyVal × Val) y => Shorter wx.2 y ∧ Datum env q wx.1 y) (ws.zip xs)
      fun i p hp => by
        obtain ⟨w, x⟩ := p
        rw [List.getElem?_zip_eq_some] at hp
        exact ih i w x hp.1 hp.2
    rw [List.length_zip, h5, Nat.min_self] at g1
    refine ⟨.struct ys, .struct g1 fun i x y hx hy => ?_, .record h1 h2 h3 h4 (by omega) fun i w y hw hy => ?_⟩
    · have hl : i < ws.length := by have := (List.getElem?_eq_some_iff.mp hx).1; omega
      exact (g2 i (ws[i], x) y (by rw [List.getElem?_zip_eq_some]; exact ⟨List.getElem?_eq_getElem hl, hx⟩) hy).1
    · have hl : i < xs.length := by have := (List.getElem?_eq_some_iff.mp hw).1; omega
      exact (g2 i (w, xs[i]) y (by rw [List.getElem?_zip_eq_some]; exact ⟨hw, List.getElem?_eq_getElem hl⟩) hy).2

theorem inside_trans {a b c : Option String} {u v w : PyVal} (h : Inside a u b v) (h' : Inside b v c w) :
    Inside a u c w := by
  induction h with
  | here => exact h'
  | member h1 _ ih => exact .member h1 (ih h')
  | items h1 h2 _ ih => exact .items h1 h2 (ih h')
  | values h1 h2 _ ih => exact .values h1 h2 (ih h')
  | field h1 h2 h3 h4 h5 _ ih => exact .field h1 h2 h3 h4 h5 (ih h')

/-- Without `fixed`, there are no other values. -/
theorem loose_datum {env : Env} {top : Option String} {all : PyVal} (hf : NoFixed top all)
    (he : ∀ s ns' w, lookup env s = some (ns', w) → Inside top all ns' w)
    {ns : Option String} {v : PyVal} {x : Val} (h : Loose env ns v x) (hi : Inside top all ns v) : Datum env ns v x := by
  induction h with
  | primitiveName h => exact .primitiveName h
  | reference h1 h2 _ ih => exact .reference h1 h2 (ih (he _ _ _ h2))
  | union h1 _ ih => exact .union h1 (ih (inside_trans hi (.member h1 .here)))
  | primitive h1 h2 h3 => exact .primitive h1 h2 h3
  | logical h1 h2 h3 => exact .logical h1 h2 h3
  | fixed h1 h2 h3 h4 => exact absurd h2 (hf _ _ hi h1)
  | enum h1 h2 h3 => exact .enum h1 h2 h3
  | array h1 h2 _ ih => exact .array h1 h2 fun x hx => ih x hx (inside_trans hi (.items h1 h2 .here))
  | map h1 h2 h3 _ ih => exact .map h1 h2 h3 fun x hx => ih x hx (inside_trans hi (.values h1 h2 .here))
  | record h1 h2 h3 h4 h5 _ ih =>
    exact .record h1 h2 h3 h4 h5 fun i w x hw hx =>
      ih i w x hw hx (inside_trans hi (.field h1 h2 h3 h4 (List.mem_of_getElem? hw) .here))

/-- Definitions can be added. -/
theorem datum_mono {env env' : Env} (he : ∀ s e, lookup env s = some e → lookup env' s = some e)
    {ns : Option String} {v : PyVal} {x : Val} (h : Datum env ns v x) : Datum env' ns v x := by
  induction h with
  | primitiveName h => exact .primitiveName h
  | reference h1 h2 _ ih => exact .reference h1 (he _ _ h2) ih
  | union h1 _ ih => exact .union h1 ih
  | primitive h1 h2 h3 => exact .primitive h1 h2 h3
  | logical h1 h2 h3 => exact .logical h1 h2 h3
  | fixed h1 h2 h3 => exact .fixed h1 h2 h3
  | enum h1 h2 h3 => exact .enum h1 h2 h3
  | array h1 h2 _ ih => exact .array h1 h2 ih
  | map h1 h2 h3 _ ih => exact .map h1 h2 h3 ih
  | record h1 h2 h3 h4 h5 _ ih => exact .record h1 h2 h3 h4 h5 ih

theorem fits_mono {l : PyVal} {m n : Nat} (h : Values.Fits l n) (hm : m ≤ n) : Values.Fits l m := by
  rcases h with h | ⟨k, h1, h2⟩
  · exact .inl h
  · exact .inr ⟨k, h1, by omega⟩

/-- A type that holds a value holds it with shorter byte strings. -/
theorem holdsIn_shorter {reg : Registry} {t : RType} {y : Val} (h : HoldsIn reg t y) (x : Val) (hs : Shorter x y) :
    HoldsIn reg t x := by
  induction h generalizing x with
  | leaf g1 g2 =>
    cases hs with
    | same => exact .leaf g1 g2
    | bytes hm =>
      cases g2 with
      | bytes k1 k2 => exact .leaf rfl (.bytes k1 (fits_mono k2 hm))
      | union k => simp [Recap.Spec.children] at g1; subst g1; cases k
    | list k1 k2 =>
      cases g2 with
      | list => simp [Recap.Spec.children] at g1
      | union k => simp [Recap.Spec.children] at g1; subst g1; cases k
    | map k1 k2 =>
      cases g2 with
      | map => simp [Recap.Spec.children] at g1
      | union k => simp [Recap.Spec.children] at g1; subst g1; cases k
    | struct k1 k2 =>
      cases g2 with
      | struct k3 =>
        simp [Recap.Spec.children] at g1
        subst g1
        refine .struct (by omega) fun i f x hf => by simp at hf
      | union k => simp [Recap.Spec.children] at g1; subst g1; cases k
  | list h ih =>
    cases hs with
    | same => exact .list h
    | list k1 k2 =>
      refine .list fun x hx => ?_
      obtain ⟨i, hi⟩ := mem_getElem? hx
      rename_i ys _ _
      have hl : i < ys.length := by have := (List.getElem?_eq_some_iff.mp hi).1; omega
      exact ih _ (List.getElem_mem hl) x (k2 i x _ hi (List.getElem?_eq_getElem hl))
  | @map _ _ _ qs _ h1 h2 ih1 ih2 =>
    cases hs with
    | same => exact .map h1 h2
    | @map ps _ k1 k2 =>
      have hlen : ps.length = qs.length := by simpa using congrArg List.length k1
      refine .map (fun p hp => ?_) fun p hp => ?_
      · have : p.1 ∈ qs.map Prod.fst := k1 ▸ List.mem_map_of_mem hp
        obtain ⟨q, hq, hpq⟩ := List.mem_map.mp this
        exact hpq ▸ h1 q hq
      · obtain ⟨i, hi⟩ := mem_getElem? hp
        have hl : i < qs.length := by have := (List.getElem?_eq_some_iff.mp hi).1; omega
        exact ih2 _ (List.getElem_mem hl) _ (k2 i p _ hi (List.getElem?_eq_getElem hl))
  | @struct _ _ ys _ h1 h ih =>
    cases hs with
    | same => exact .struct h1 h
    | @struct xs _ k1 k2 =>
      refine .struct (by omega) fun i f x hf hx => ?_
      have hl : i < ys.length := by have := (List.getElem?_eq_some_iff.mp hx).1; omega
      exact ih i f _ hf (List.getElem?_eq_getElem hl) x (k2 i x _ hx (List.getElem?_eq_getElem hl))
  | union h1 _ ih => exact .union h1 (ih x hs)
  | reference h1 _ ih => exact .reference h1 (ih x hs)

end Recap.AvroData
