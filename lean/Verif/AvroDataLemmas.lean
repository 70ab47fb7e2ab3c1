import Verif.AvroDataSpec
import Verif.AvroRead
import Verif.ValuesLemmas

/-!
# Lemmas about the data of Avro schemas (C128)
-/

set_option autoImplicit false

namespace Recap.AvroData

open Avro.Spec (IntValue Header target Other HasType Around root added)
open Values (Val)
open Recap.Avro

/-! ## Values of types with references -/

/-- The attributes that matter for the values are the same. -/
structure Same (a b : Attrs) : Prop where
  logical : b.logical = a.logical
  extra : ∀ k ∈ ["precision", "scale", "unit"], Dict.get? b.extra k = Dict.get? a.extra k

theorem holds_withAttrs {t : RType} {x : Val} {b : Attrs} (h : Values.Holds t x) (hs : Same t.attrs b) :
    Values.Holds (t.withAttrs b) x := by
  obtain ⟨h1, h2⟩ := hs
  have hp := h2 "precision" (by simp)
  have hq := h2 "scale" (by simp)
  have hu := h2 "unit" (by simp)
  cases h with
  | null => exact .null
  | bool => exact .bool
  | int g1 g2 => exact .int (h1.trans g1) g2
  | float g => exact .float g
  | string g1 g2 => exact .string (h1.trans g1) g2
  | uuid g1 g2 g3 => exact .uuid (h1.trans g1) g2 g3
  | bytes g1 g2 => exact .bytes (h1.trans g1) g2
  | decimal g1 g2 g3 g4 g5 g6 => exact .decimal (h1.trans g1) (hp.trans g2) (hq.trans g3) g4 g5 g6
  | instant g1 g2 g3 g4 => exact .instant (h1.trans g1) (hu.trans g2) g3 g4
  | date g1 g2 g3 => exact .date (h1.trans g1) (hu.trans g2) g3
  | time g1 g2 g3 g4 => exact .time (h1.trans g1) (hu.trans g2) g3 g4
  | enum g => exact .enum g
  | list g => exact .list g
  | map g1 g2 => exact .map g1 g2
  | struct g1 g2 => exact .struct g1 g2
  | union g1 g2 => exact .union g1 g2

/-- The type is not a reference. -/
def Direct (t : RType) : Prop := ∀ r a, t ≠ .proxy r a

theorem children_withAttrs' (t : RType) (b : Attrs) : Recap.Spec.children (t.withAttrs b) = Recap.Spec.children t := by
  cases t <;> rfl

theorem holdsIn_withAttrs {reg : Registry} {t : RType} {x : Val} {b : Attrs} (h : HoldsIn reg t x) (hd : Direct t)
    (hs : Same t.attrs b) : HoldsIn reg (t.withAttrs b) x := by
  cases h with
  | leaf g1 g2 => exact .leaf (by rw [children_withAttrs', g1]) (holds_withAttrs g2 hs)
  | list g => exact .list g
  | map g1 g2 => exact .map g1 g2
  | struct g1 g2 => exact .struct g1 g2
  | union g1 g2 => exact .union g1 g2
  | reference => exact absurd rfl (hd _ _)

theorem deepcopyList_map (reg : Registry) (ts : List RType) :
    RType.deepcopyList reg ts = ts.map (RType.deepcopy reg) := by
  induction ts with
  | nil => simp [RType.deepcopyList]
  | cons t ts ih => simp [RType.deepcopyList, ih]

theorem holdsIn_deepcopy {reg : Registry} {t : RType} {x : Val} (h : HoldsIn reg t x) (r : Registry) :
    HoldsIn r (t.deepcopy reg) x := by
  induction h with
  | leaf g1 g2 =>
    rename_i reg t x
    have : t.deepcopy reg = t := by
      cases t with
      | list => simp [Recap.Spec.children] at g1
      | map => simp [Recap.Spec.children] at g1
      | struct fs a => simp [Recap.Spec.children] at g1; subst g1; simp [RType.deepcopy, RType.deepcopyList]
      | union fs a => simp [Recap.Spec.children] at g1; subst g1; simp [RType.deepcopy, RType.deepcopyList]
      | proxy => cases g2
      | _ => simp [RType.deepcopy]
    rw [this]
    exact .leaf g1 g2
  | list _ ih => rw [RType.deepcopy]; exact .list ih
  | map _ _ ih1 ih2 => rw [RType.deepcopy]; exact .map ih1 ih2
  | struct g1 _ ih =>
    rw [RType.deepcopy, deepcopyList_map]
    refine .struct (by simpa using g1) fun i f x hf hx => ?_
    rw [List.getElem?_map] at hf
    obtain ⟨f', h1, rfl⟩ := Option.map_eq_some_iff.mp hf
    exact ih i f' x h1 hx
  | union g1 _ ih =>
    rw [RType.deepcopy, deepcopyList_map]
    exact .union (List.mem_map_of_mem g1) ih
  | @reference reg r' a t x g1 g2 _ =>
    cases r' with
    | none =>
      rw [RType.deepcopy]
      exact .reference (r := some reg) g1 g2
    | some r' =>
      have : (RType.proxy (some r') a).deepcopy reg = .proxy (some r') a := by simp [RType.deepcopy]
      rw [this]
      exact .reference (r := some r') g1 g2

mutual
theorem deepcopy_twice (a b : Registry) : ∀ t : RType, (t.deepcopy a).deepcopy b = t.deepcopy a
  | .list t .. => by simp [RType.deepcopy, deepcopy_twice a b t]
  | .map k v _ => by simp [RType.deepcopy, deepcopy_twice a b k, deepcopy_twice a b v]
  | .struct fs _ => by simp [RType.deepcopy, deepcopy_twiceAll a b fs]
  | .union ts _ => by simp [RType.deepcopy, deepcopy_twiceAll a b ts]
  | .proxy .none _ => by simp [RType.deepcopy]
  | .proxy (some _) _ => by simp [RType.deepcopy]
  | .null _ => by simp [RType.deepcopy]
  | .bool _ => by simp [RType.deepcopy]
  | .int .. => by simp [RType.deepcopy]
  | .float .. => by simp [RType.deepcopy]
  | .string .. => by simp [RType.deepcopy]
  | .bytes .. => by simp [RType.deepcopy]
  | .enum .. => by simp [RType.deepcopy]
theorem deepcopy_twiceAll (a b : Registry) : ∀ ts : List RType,
    RType.deepcopyList b (RType.deepcopyList a ts) = RType.deepcopyList a ts
  | [] => by simp [RType.deepcopyList]
  | t :: ts => by simp [RType.deepcopyList, deepcopy_twice a b t, deepcopy_twiceAll a b ts]
end

theorem deepcopy_withAttrs (reg : Registry) {t : RType} (hd : Direct t) (b : Attrs) :
    (t.withAttrs b).deepcopy reg = (t.deepcopy reg).withAttrs b := by
  cases t <;> first | exact absurd rfl (hd _ _) | simp [RType.deepcopy, RType.withAttrs]

theorem direct_deepcopy {reg : Registry} {t : RType} (hd : Direct t) : Direct (t.deepcopy reg) := by
  intro r a h
  cases t <;> first | exact absurd rfl (hd _ _) | simp [RType.deepcopy] at h

theorem direct_withAttrs {t : RType} {b : Attrs} (hd : Direct t) : Direct (t.withAttrs b) := by
  intro r a h
  cases t <;> first | exact absurd rfl (hd _ _) | simp [RType.withAttrs] at h

theorem attrs_deepcopy (reg : Registry) (t : RType) : (t.deepcopy reg).attrs = t.attrs := by
  cases t with
  | proxy r a => cases r <;> simp [RType.deepcopy, RType.attrs]
  | _ => simp [RType.deepcopy, RType.attrs]

/-- What is stored under a name holds the values of the type that was registered. -/
theorem holdsIn_stored {reg : Registry} {t : RType} {x : Val} (h : HoldsIn reg t x) (hd : Direct t) (r : Registry) :
    HoldsIn r (Registry.stored reg t) x := by
  refine holdsIn_withAttrs (holdsIn_deepcopy h r) (direct_deepcopy hd) ⟨by rw [attrs_deepcopy], fun k hk => ?_⟩
  rw [attrs_deepcopy]
  exact Dict.get?_erase_ne _ (by rintro rfl; revert hk; decide)

theorem stored_deepcopy {reg : Registry} {t : RType} (hd : Direct t) (r : Registry) :
    (Registry.stored reg t).deepcopy r = Registry.stored reg t := by
  rw [Registry.stored, deepcopy_withAttrs _ (direct_deepcopy hd), deepcopy_twice]

/-- A name and a default do not matter for the values. -/
theorem overrides_same (e : Dict) (t : RType) (he : ∀ k ∈ Dict.keys e, k = "name" ∨ k = "default") :
    ∃ b, applyOverrides t e = .ok (t.withAttrs b) ∧ Same t.attrs b := by
  induction e generalizing t with
  | nil => exact ⟨t.attrs, by cases t <;> rfl, rfl, fun _ _ => rfl⟩
  | cons kv e ih =>
    obtain ⟨k, v⟩ := kv
    have h1 : applyOverride t k v = .ok (t.withAttrs { t.attrs with extra := Dict.set t.attrs.extra k v }) := by
      rcases he k (by simp [Dict.keys]) with rfl | rfl <;> cases t <;> rfl
    obtain ⟨b, h2, h3, h4⟩ := ih (t.withAttrs { t.attrs with extra := Dict.set t.attrs.extra k v })
      (fun k hk => he k (by simp only [Dict.keys, List.map_cons] at hk ⊢; exact List.mem_cons_of_mem _ hk))
    refine ⟨b, ?_, ?_, fun k' hk' => ?_⟩
    · simp only [applyOverrides, h1, bind, Except.bind]
      rw [h2]
      cases t <;> rfl
    · rw [h3]; cases t <;> rfl
    · rw [h4 k' hk']
      have : (t.withAttrs { t.attrs with extra := Dict.set t.attrs.extra k v }).attrs.extra =
          Dict.set t.attrs.extra k v := by cases t <;> rfl
      rw [this, Dict.get?_set_ne]
      intro hkk
      subst hkk
      rcases he k (by simp [Dict.keys]) with rfl | rfl <;> revert hk' <;> decide

/-- A reference, with a name and a default, to a type in the registry. -/
theorem holdsIn_reference {reg : Registry} {a : Attrs} {s : String} {u : RType} {x : Val} (ha : a.alias = .str s)
    (he : ∀ k ∈ Dict.keys a.extra, k = "name" ∨ k = "default") (hf : Registry.find? reg s = some u)
    (hc : u.deepcopy reg = u) (hd : Direct u) (h : HoldsIn reg u x) : HoldsIn reg (.proxy .none a) x := by
  obtain ⟨b, h1, h2⟩ := overrides_same a.extra u he
  refine .reference (t := u.withAttrs b) ?_ (holdsIn_withAttrs h hd h2)
  simp only [resolve, Option.getD_none, Registry.fromAlias, ha, hf, bind, Except.bind, hc, h1]

/-! ## Names -/

theorem header_ns {ns q q' : Option String} {d : Dict} {name name' : Option (String × String)}
    (h : Header ns d name q) (h' : Header ns d name' q') : q = q' := by
  have := (header_eq h).symm.trans (header_eq h')
  simp only [Except.ok.injEq, Prod.mk.injEq] at this
  exact this.1

/-- The namespace of the fields of a record with a name. -/
def Inner (ns : Option String) : Prop := ∃ s, ns = some s ∧ s ≠ ""

theorem root_ne (q : Option String) : root q ≠ "" := by
  cases q with
  | none => decide
  | some s => simp only [root]; split <;> simp_all

theorem header_inner {ns q : Option String} {d : Dict} {p : String × String} (h : Header ns d (some p) q) : Inner q := by
  cases h with
  | short => exact ⟨_, rfl, root_ne _⟩
  | full _ _ _ h => exact ⟨_, rfl, h⟩

theorem field_header {ns : Option String} {d : Dict} {x : String} (hi : Inner ns)
    (h1 : Dict.get? d "name" = some (.str x)) (h2 : '.' ∉ x.toList) (h3 : Dict.get? d "namespace" = .none) :
    ∃ s, Header ns d (some (s, x)) ns := by
  obtain ⟨s, rfl, hs⟩ := hi
  have := Header.short (.inherited (ns := some s) h3) h1 h2
  simp only [root, hs, if_false] at this
  exact ⟨_, this⟩

theorem anonymous_header {ns : Option String} {d : Dict} (h : Anonymous d) : Header ns d .none ns :=
  .anonymous (.inherited h.namespace) h.name

theorem fieldTypes_of {vs ws : List PyVal} (h : Fields vs ws) : FieldTypes vs ws := by
  induction h with
  | nil => exact .nil
  | cons _ _ _ h _ ih => exact .cons h.type ih

theorem fieldTypes_eq {vs ws ws' : List PyVal} (h : FieldTypes vs ws) (h' : FieldTypes vs ws') : ws = ws' := by
  induction h generalizing ws' with
  | nil => cases h'; rfl
  | cons g _ ih =>
    cases h' with
    | cons g' h' => rw [ih h', Option.some.inj (g.symm.trans g')]

theorem extra_keys' (name : Option (String × String)) (d : Dict) :
    ∀ k ∈ Dict.keys (Avro.Spec.extra name d), k = "name" ∨ k = "default" := by
  intro k hk
  unfold Avro.Spec.extra at hk
  cases name <;> cases Dict.get? d "default" <;> simp [Dict.keys] at hk <;> grind

/-! ## Definitions -/

theorem lookup_append (a b : Env) (s : String) : lookup (a ++ b) s = match lookup a s with
    | some e => some e
    | .none => lookup b s := by
  induction a with
  | nil => simp [lookup]
  | cons kt a ih =>
    obtain ⟨k, t⟩ := kt
    simp only [List.cons_append, lookup]
    split <;> simp_all

/-- The definitions so far are in the registry, and hold their data. -/
def Known (all env : Env) (reg : Registry) : Prop :=
  ∀ s q v, lookup env s = some (q, v) → lookup all s = some (q, v) ∧
    ∃ u, Registry.find? reg s = some u ∧ (∀ r, u.deepcopy r = u) ∧ Direct u ∧
      ∀ x r, Datum all q v x → HoldsIn r u x

theorem Known.grow {all env : Env} {reg : Registry} (h : Known all env reg) (new : Registry) :
    Known all env (reg ++ new) := by
  intro s q v hs
  obtain ⟨h1, u, h2, h3⟩ := h s q v hs
  exact ⟨h1, u, by rw [find?_append, h2], h3⟩

theorem Known.define {all env : Env} {reg : Registry} {s : String} {q : Option String} {v : PyVal} {t : RType}
    {rest : Env} (h : Known all env reg) (hall : all = env ++ [(s, q, v)] ++ rest) (hs : s ∉ Recap.Spec.names reg)
    (hd : Direct t) (ht : ∀ x, Datum all q v x → HoldsIn reg t x) :
    Known all (env ++ [(s, q, v)]) (reg ++ [(s, Registry.stored reg t)]) := by
  have hn : lookup env s = .none := by
    cases he : lookup env s with
    | none => rfl
    | some e =>
      obtain ⟨-, u, h2, -⟩ := h s e.1 e.2 (by rw [he])
      exact absurd ((find?_isSome_iff reg s).mp (by rw [h2]; rfl)) hs
  have hf : Registry.find? reg s = .none := by
    cases he : Registry.find? reg s with
    | none => rfl
    | some e => exact absurd ((find?_isSome_iff reg s).mp (by rw [he]; rfl)) hs
  intro s' q' v' hl
  rw [lookup_append] at hl
  cases he : lookup env s' with
  | some e =>
    rw [he] at hl
    exact h.grow _ s' q' v' (by rw [he]; exact hl)
  | none =>
    rw [he] at hl
    simp only [lookup] at hl
    split at hl
    · rename_i hss
      subst hss
      simp only [Option.some.injEq, Prod.mk.injEq] at hl
      obtain ⟨rfl, rfl⟩ := hl
      refine ⟨by rw [hall, lookup_append, lookup_append, hn]; simp [lookup], Registry.stored reg t, ?_,
        stored_deepcopy hd, direct_withAttrs (direct_deepcopy hd), fun x r hx => holdsIn_stored (ht x hx) hd r⟩
      rw [find?_append, hf]
      simp [Registry.find?]
    · cases hl

theorem registered_ok {t t' : RType} {reg reg' : Registry} (h : registered t reg = .ok (t', reg')) :
    t' = t ∧ ∃ new, reg' = reg ++ new := by
  unfold registered at h
  split at h
  · cases h; exact ⟨rfl, [], by simp⟩
  · obtain ⟨r, hr, h⟩ := ok_bind h
    cases h
    obtain ⟨s, -, -, -, rfl⟩ := registerAlias_ok hr
    exact ⟨rfl, _, rfl⟩

theorem registered_named {t t' : RType} {reg reg' : Registry} {s x : String}
    (ha : t.attrs.alias = Avro.Spec.alias (some (s, x))) (h : registered t reg = .ok (t', reg')) :
    t' = t ∧ s ∉ Recap.Spec.names reg ∧ reg' = reg ++ [(s, Registry.stored reg t)] := by
  unfold registered at h
  rw [ha] at h
  obtain ⟨r, hr, h⟩ := ok_bind h
  cases h
  obtain ⟨s', h1, h2, h3, rfl⟩ := registerAlias_ok hr
  rw [ha] at h1
  cases h1
  exact ⟨rfl, h2, rfl⟩

end Recap.AvroData
