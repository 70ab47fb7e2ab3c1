import Verif.AvroOnlyRead

/-!
# Reading a schema adds shorter byte strings only (C136)
-/

set_option autoImplicit false

namespace Recap.AvroData

open Avro.Spec (IntValue Header target Other HasType Around root added)
open Values (Val)
open Recap.Avro

/-! ## Single schemas -/

theorem primitive_back {s : String} {x : Val} {a : Attrs} {t : RType} {reg : Registry} (ht : Avro.Spec.Primitive a s t)
    (ha : a.logical = .none) (h : HoldsIn reg t x) : Primitive s x := by
  have hl : ∀ l : String, a.logical ≠ .str l := by intro l h; rw [ha] at h; cases h
  cases ht with
  | bytes =>
    cases h with
    | leaf _ h =>
      cases h with
      | bytes _ hf =>
        rcases hf with hf | ⟨k, hf, hk⟩ <;> cases hf
        exact .bytes (by omega)
      | decimal h => exact absurd h (hl _)
  | string =>
    cases h with
    | leaf _ h =>
      cases h with
      | string _ hf =>
        rcases hf with hf | ⟨k, hf, hk⟩ <;> cases hf
        exact .string (by omega)
      | uuid h => exact absurd h (hl _)
  | _ =>
    cases h with
    | leaf _ h => cases h <;> first
      | exact .null
      | exact .boolean
      | exact .int ‹_›
      | exact .long ‹_›
      | exact .float ‹_›
      | exact .double ‹_›
      | exact absurd ‹_› (hl _)

theorem logical_back {d e : Dict} {l : String} {x : Val} {t : RType} {reg : Registry} (ha : Applies d l)
    (hb : Is d "bytes" → Dict.get? d "size" = .none) (ht : parseLogical (.str l) d e = .ok t) (h : HoldsIn reg t x) :
    Logical d l x := by
  have leaf : ∀ {t : RType} {x : Val}, HoldsIn reg t x → Recap.Spec.children t = [] → Direct t → Values.Holds t x := by
    intro t x h hc hd
    cases h with
    | leaf _ h => exact h
    | list => simp [Recap.Spec.children] at hc
    | map => simp [Recap.Spec.children] at hc
    | struct h1 h2 =>
      simp [Recap.Spec.children] at hc
      subst hc
      exact .struct h1 (by simp)
    | union h1 => simp [Recap.Spec.children] at hc; subst hc; cases h1
    | reference => exact absurd rfl (hd _ _)
  cases ha with
  | @decimal p q h1 h2 =>
    have h1' : Dict.get? d "type" = some (.str "bytes") := h1
    simp only [parseLogical, if_true, h1', h2.precision, Except.ok.injEq] at ht
    have hs : Dict.getD d "size" (.int maxLong) = .int maxLong := by simp [Dict.getD, hb h1]
    rw [hs, scale_getD h2] at ht
    subst ht
    have := leaf h rfl (by intro r a h; cases h)
    cases this with
    | bytes g => simp [attrsOf] at g
    | decimal g1 g2 g3 g4 g5 g6 =>
      simp [attrsOf] at g2
      simp [attrsOf, Dict.get?] at g3
      have g2 := Int.ofNat_inj.mp g2
      have g3 := Int.ofNat_inj.mp g3
      subst g2 g3
      refine .decimal (n := maxLong.toNat) h1 h2 g4 g5 (by decide) ?_
      have : (8 * maxLong).toNat = 8 * maxLong.toNat := by decide
      rwa [this] at g6
  | @fixedDecimal n p q h1 h2 h3 =>
    have h1' : Dict.get? d "type" = some (.str "fixed") := h1
    simp only [parseLogical, if_true, h1', h3.precision, Except.ok.injEq] at ht
    have hs : Dict.getD d "size" (.int maxLong) = .int n := by simp [Dict.getD, h2]
    rw [hs, scale_getD h3] at ht
    subst ht
    have := leaf h rfl (by intro r a h; cases h)
    cases this with
    | bytes g => simp [attrsOf] at g
    | decimal g1 g2 g3 g4 g5 g6 =>
      simp [attrsOf] at g2
      simp [attrsOf, Dict.get?] at g3
      have g2 := Int.ofNat_inj.mp g2
      have g3 := Int.ofNat_inj.mp g3
      subst g2 g3
      refine .fixedDecimal (n := n) h1 h2 h3 g4 g5 ?_
      have : (8 * (n : Int)).toNat = 8 * n := by omega
      rwa [this] at g6
  | uuid =>
    simp [parseLogical] at ht
    subst ht
    have := leaf h rfl (by intro r a h; cases h)
    cases this with
    | string g => simp [attrsOf] at g
    | uuid _ g _ => exact .uuid g
  | date =>
    simp [parseLogical] at ht
    subst ht
    have := leaf h rfl (by intro r a h; cases h)
    cases this with
    | int g => simp [attrsOf] at g
    | instant g => simp [attrsOf] at g
    | time g => simp [attrsOf] at g
    | date _ _ g => exact .date g
  | timeMillis =>
    simp [parseLogical] at ht
    subst ht
    have := leaf h rfl (by intro r a h; cases h)
    cases this with
    | int g => simp [attrsOf] at g
    | instant g => simp [attrsOf] at g
    | date g => simp [attrsOf] at g
    | time _ g1 g2 g3 =>
      simp [attrsOf] at g1
      subst g1
      cases g2
      exact .timeMillis g3
  | timeMicros =>
    simp [parseLogical] at ht
    subst ht
    have := leaf h rfl (by intro r a h; cases h)
    cases this with
    | int g => simp [attrsOf] at g
    | instant g => simp [attrsOf] at g
    | date g => simp [attrsOf] at g
    | time _ g1 g2 g3 =>
      simp [attrsOf] at g1
      subst g1
      cases g2
      exact .timeMicros g3
  | timestampMillis =>
    simp [parseLogical] at ht
    subst ht
    have := leaf h rfl (by intro r a h; cases h)
    cases this with
    | int g => simp [attrsOf] at g
    | time g => simp [attrsOf] at g
    | date g => simp [attrsOf] at g
    | instant _ g1 g2 g3 =>
      simp [attrsOf] at g1
      subst g1
      cases g2
      exact .timestampMillis g3
  | timestampMicros =>
    simp [parseLogical] at ht
    subst ht
    have := leaf h rfl (by intro r a h; cases h)
    cases this with
    | int g => simp [attrsOf] at g
    | time g => simp [attrsOf] at g
    | date g => simp [attrsOf] at g
    | instant _ g1 g2 g3 =>
      simp [attrsOf] at g1
      subst g1
      cases g2
      exact .timestampMicros g3
  | duration =>
    simp [parseLogical] at ht
    subst ht
    have := leaf h rfl (by intro r a h; cases h)
    cases this with
    | bytes g => simp [attrsOf] at g
    | decimal g => simp [attrsOf] at g

/-! ## Nested schemas -/

/-- The definitions so far are in the registry, and hold nothing else. -/
def KnownOnly (all env : Env) (reg : Registry) : Prop :=
  ∀ s q v, lookup env s = some (q, v) → lookup all s = some (q, v) ∧
    ∃ u, Registry.find? reg s = some u ∧ (∀ r, u.deepcopy r = u) ∧ Direct u ∧
      ∀ x r, HoldsIn r u x → Loose all q v x

theorem KnownOnly.grow {all env : Env} {reg : Registry} (h : KnownOnly all env reg) (new : Registry) :
    KnownOnly all env (reg ++ new) := by
  intro s q v hs
  obtain ⟨h1, u, h2, h3⟩ := h s q v hs
  exact ⟨h1, u, by rw [find?_append, h2], h3⟩

theorem KnownOnly.define {all env : Env} {reg : Registry} {s : String} {q : Option String} {v : PyVal} {t : RType}
    {rest : Env} (h : KnownOnly all env reg) (hall : all = env ++ [(s, q, v)] ++ rest) (hs : s ∉ Recap.Spec.names reg)
    (hd : Direct t) (ht : ∀ x, HoldsIn reg t x → Loose all q v x) :
    KnownOnly all (env ++ [(s, q, v)]) (reg ++ [(s, Registry.stored reg t)]) := by
  have hn : lookup env s = .none := by
    cases he : lookup env s with
    | none => rfl
    | some e =>
      obtain ⟨-, u, h2, -⟩ := h s e.1 e.2 (by rw [he])
      exact absurd ((find?_isSome_iff reg s).mp (by rw [h2]; rfl)) hs
  have hf : Registry.find? reg s = .none := by
    cases he : Registry.find? reg s with
    | none => rfl
    | some e => exact absurd ((find?_isSome_iff reg s).mp (by rw [he]; rfl)) hs
  intro s' q' v' hl
  rw [lookup_append] at hl
  cases he : lookup env s' with
  | some e =>
    rw [he] at hl
    exact h.grow _ s' q' v' (by rw [he]; exact hl)
  | none =>
    rw [he] at hl
    simp only [lookup] at hl
    split at hl
    · rename_i hss
      subst hss
      simp only [Option.some.injEq, Prod.mk.injEq] at hl
      obtain ⟨rfl, rfl⟩ := hl
      refine ⟨by rw [hall, lookup_append, lookup_append, hn]; simp [lookup], Registry.stored reg t, ?_,
        stored_deepcopy hd, direct_withAttrs (direct_deepcopy hd), fun x r hx => ht x (holdsIn_of_stored hx hd)⟩
      rw [find?_append, hf]
      simp [Registry.find?]
    · cases hl

/-- What is read of `w` holds only data of the schema `v`, or shorter byte strings. -/
def Only (all env : Env) (ns : Option String) (v : PyVal) (env' : Env) (w : PyVal) : Prop :=
  ∀ m reg t reg' rest, parseF m w ns reg = .ok (t, reg') → all = env' ++ rest → KnownOnly all env reg →
    KnownOnly all env' reg' ∧ (∃ new, reg' = reg ++ new) ∧ ((∃ d, v = .dict d) → Direct t) ∧
    ∀ x more, HoldsIn (reg' ++ more) t x → Loose all ns v x

/-- The same for several schemas. -/
def OnlyAll (all env : Env) (ns : Option String) (vs : List PyVal) (env' : Env) (ws : List PyVal) : Prop :=
  ∀ m reg ts reg' rest, Avro.parseAll (parseF m) ns ws reg = .ok (ts, reg') → all = env' ++ rest → KnownOnly all env reg →
    KnownOnly all env' reg' ∧ (∃ new, reg' = reg ++ new) ∧ ts.length = vs.length ∧
    ∀ (i : Nat) v t x more, vs[i]? = some v → ts[i]? = some t → HoldsIn (reg' ++ more) t x → Loose all ns v x

/-- A primitive type, alone or of a field. -/
theorem only_primitive {all env : Env} {ns : Option String} {v : PyVal} {d : Dict} {name : Option (String × String)}
    {s : String} (hh : Header ns d name ns) (ht : HasType d (.str s)) (hp : ∃ x, Primitive s x)
    (hx : ∀ x, Primitive s x → Loose all ns v x) : Only all env ns v env (.dict d) := by
  intro m reg t reg' rest h _ hk
  cases m with
  | zero => simp [parseF] at h
  | succ m =>
    rw [parseF_dict hh ht] at h
    obtain ⟨u, hu⟩ := primitive_type (Avro.Spec.attrs name d) hp
    simp only [parseType, ht.type, attrsOf_attrs, (primitive_eq hu).1] at h
    obtain ⟨rfl, new, rfl⟩ := registered_ok h
    exact ⟨hk.grow _, ⟨_, rfl⟩, fun _ => primitive_direct hu, fun x more hd => hx x (primitive_back hu rfl hd)⟩

/-- A field whose schema is a dictionary. -/
theorem only_nested {all env env' : Env} {ns : Option String} {d fd : Dict} {x : String} (hi : Inner ns)
    (hf : IsField fd x (.dict d)) (h : Only all env ns (.dict d) env' (.dict d)) :
    Only all env ns (.dict d) env' (.dict fd) := by
  intro m reg t reg' rest hp hall hk
  cases m with
  | zero => simp [parseF] at hp
  | succ m =>
    obtain ⟨s, hh⟩ := field_header hi hf.name hf.simple hf.namespace
    rw [parseF_dict hh hf.type] at hp
    simp only [parseType, hf.type.type] at hp
    obtain ⟨⟨u, reg1⟩, h1, hp⟩ := ok_bind hp
    cases hp
    obtain ⟨g1, g2, g3, g4⟩ := h m reg u _ rest h1 hall hk
    refine ⟨g1, g2, fun _ => direct_withAttrs (g3 ⟨d, rfl⟩), fun y more hd =>
      g4 y more (holdsIn_of_withAttrs hd (g3 ⟨d, rfl⟩) ⟨rfl, fun k hk => ?_⟩)⟩
    have key : ∀ k ∈ ["precision", "scale", "unit"], k ∉ Dict.keys (added (some (s, x)) fd) := by
      intro k hk
      unfold added Avro.Spec.extra
      simp only [List.mem_cons, List.not_mem_nil, or_false] at hk
      rcases hk with rfl | rfl | rfl <;> cases Dict.get? fd "doc" <;> cases Dict.get? fd "default" <;>
        simp [Dict.keys]
    exact get?_update_ne _ _ (key k hk)

theorem unannotated {d : Dict} {v : PyVal} (h : HasType d v) : Unannotated d := by
  intro l hl
  rw [h.plain] at hl
  cases hl

theorem only_all {all : Env} {env env' : Env} {ns : Option String} {v : PyVal} (h : Ordered env ns v env') :
    Only all env ns v env' v ∧ (Inner ns → ∀ fd x, IsField fd x v → Only all env ns v env' (.dict fd)) := by
  induction h using Ordered.rec (motive_2 := fun env ns vs env' _ => OnlyAll all env ns vs env' vs ∧
    (Inner ns → ∀ fs, Fields fs vs → OnlyAll all env ns vs env' fs)) with
  | @primitiveName env ns s hp =>
    refine ⟨?_, fun hi fd x hf => ?_⟩
    · intro m reg t reg' rest h _ hk
      cases m with
      | zero => simp [parseF] at h
      | succ m =>
        obtain ⟨u, hu⟩ := primitive_type {} hp
        have : parseF (m + 1) (.str s) ns reg = registered u reg := by
          obtain ⟨h1, h2⟩ := primitive_eq hu
          have : attrsOf [] = {} := rfl
          simp [parseF, parseDict, header, namespaceOf, Dict.get?, copied, Dict.getD, PyVal.truthy, parseType,
            bind, Except.bind, pure, Except.pure, this, h1]
        rw [this] at h
        obtain ⟨rfl, new, rfl⟩ := registered_ok h
        exact ⟨hk.grow _, ⟨_, rfl⟩, fun _ => primitive_direct hu,
          fun x more hd => .primitiveName (primitive_back hu rfl hd)⟩
    · obtain ⟨s', hh⟩ := field_header hi hf.name hf.simple hf.namespace
      exact only_primitive hh hf.type hp fun x hd => .primitiveName hd
  | @reference env ns s ho hl =>
    have key : ∀ {reg : Registry} {a : Attrs} {x : Val} (more : Registry), KnownOnly all env reg →
        HoldsIn (reg ++ more) (.proxy .none a) x →
        a.alias = .str (target ns s) → (∀ k ∈ Dict.keys a.extra, k = "name" ∨ k = "default") →
        Loose all ns (.str s) x := by
      intro reg a x more hk hd ha he
      obtain ⟨⟨q, v⟩, hl⟩ := Option.isSome_iff_exists.mp hl
      obtain ⟨h1, u, h2, h3, h4, h5⟩ := hk _ _ _ hl
      exact .reference ho h1 (h5 x _ (holdsIn_of_reference ha he (by rw [find?_append, h2]) (h3 _) h4 hd))
    refine ⟨?_, fun hi fd x hf => ?_⟩
    · intro m reg t reg' rest h _ hk
      cases m with
      | zero => simp [parseF] at h
      | succ m =>
        have : parseF (m + 1) (.str s) ns reg = .ok (.proxy .none { alias := .str (target ns s) }, reg) := by
          simp [parseF, parseDict, header, namespaceOf, Dict.get?, copied, Dict.getD, PyVal.truthy, parseType,
            bind, Except.bind, pure, Except.pure, primitive_other _ ho, parseComplex_other ho, reference, attrsOf,
            ← hasDot_target]
        rw [this] at h
        cases h
        exact ⟨hk, ⟨[], by simp⟩, fun ⟨d, hd⟩ => (by cases hd), fun x more hd =>
          key more hk hd rfl (by simp [Dict.keys])⟩
    · intro m reg t reg' rest h _ hk
      cases m with
      | zero => simp [parseF] at h
      | succ m =>
        obtain ⟨s', hh⟩ := field_header hi hf.name hf.simple hf.namespace
        rw [parseF_dict hh hf.type] at h
        simp only [parseType, hf.type.type, primitive_other _ ho, parseComplex_other ho, reference, attrsOf_added,
          hasDot_target] at h
        cases h
        exact ⟨hk, ⟨[], by simp⟩, fun ⟨d, hd⟩ => (by cases hd), fun y more hd =>
          key more hk hd rfl (extra_keys' (some (s', x)) fd)⟩
  | @union env ns vs env' _ ih =>
    refine ⟨?_, fun hi fd x hf => ?_⟩
    · intro m reg t reg' rest h
      cases m with
      | zero => simp [parseF] at h
      | succ m => rw [parseF] at h; split at h <;> cases h
    · intro m reg t reg' rest h hall hk
      cases m with
      | zero => simp [parseF] at h
      | succ m =>
        obtain ⟨s', hh⟩ := field_header hi hf.name hf.simple hf.namespace
        rw [parseF_dict hh hf.type] at h
        simp only [parseType, hf.type.type] at h
        obtain ⟨⟨ts, reg1⟩, h1, h⟩ := ok_bind h
        obtain ⟨g1, ⟨new, rfl⟩, g3, g4⟩ := ih.1 m reg ts reg1 rest h1 hall hk
        obtain ⟨rfl, new', rfl⟩ := registered_ok h
        refine ⟨g1.grow _, ⟨_, List.append_assoc ..⟩, fun ⟨d, hd⟩ => (by cases hd), fun y more hd => ?_⟩
        rw [List.append_assoc] at hd
        cases hd with
        | leaf hc hd =>
          simp [Recap.Spec.children] at hc
          subst hc
          cases hd with
          | union h => cases h
        | union ht hd =>
          obtain ⟨i, hi, rfl⟩ := List.getElem_of_mem ht
          have hi' : i < vs.length := by simp only at hi; omega
          exact .union (List.getElem_mem hi') (g4 i _ _ y _ (List.getElem?_eq_getElem hi') (List.getElem?_eq_getElem hi) hd)
  | @primitive env ns d s ha ht hp =>
    have key : Only all env ns (.dict d) env (.dict d) :=
      only_primitive (anonymous_header ha) ht hp fun x hd => .primitive ht.type (unannotated ht) hd
    exact ⟨key, fun hi fd x hf => only_nested hi hf key⟩
  | @logical env ns d l hl ha hb =>
    have key : Only all env ns (.dict d) env (.dict d) := by
      intro m reg t reg' rest h _ hk
      obtain ⟨rfl, e, h⟩ := parseF_logical hl ha h
      exact ⟨hk, ⟨[], by simp⟩, fun _ => logical_direct h, fun x more hd =>
        .logical hl ha (logical_back ha hb h hd)⟩
    exact ⟨key, fun hi fd x hf => only_nested hi hf key⟩
  | @fixed env ns d s x q n hh ht hn hm =>
    have key : Only all env ns (.dict d) (env ++ [(s, ns, .dict d)]) (.dict d) := by
      intro m reg t reg' rest h hall hk
      cases m with
      | zero => simp [parseF] at h
      | succ m =>
        rw [parseF_dict hh ht] at h
        have h1 : ∀ a, Avro.primitive "fixed" a = .none := fun a => primitive_none a (by decide)
        simp only [parseType, ht.type, h1, parseComplex, if_true, hn, asInt] at h
        rw [if_pos (by rw [maxLong]; omega), attrsOf_attrs] at h
        obtain ⟨rfl, h2, rfl⟩ := registered_named (x := x) rfl h
        have hx : ∀ (r : Registry) y, HoldsIn r (.bytes (.int n) (.bool true) (Avro.Spec.attrs (some (s, x)) d)) y →
            Loose all ns (.dict d) y := by
          intro r y hd
          cases hd with
          | leaf _ hd =>
            cases hd with
            | bytes _ hf =>
              rcases hf with hf | ⟨k, hf, hk⟩ <;> cases hf
              exact .fixed ht.type (unannotated ht) hn (by omega)
            | decimal h => cases h
        have hdir : Direct (.bytes (.int n) (.bool true) (Avro.Spec.attrs (some (s, x)) d)) := by intro r a h; cases h
        exact ⟨hk.define hall h2 hdir (hx _), ⟨_, rfl⟩, fun _ => hdir, fun y more => hx _ y⟩
    exact ⟨key, fun hi fd x hf => only_nested hi hf key⟩
  | @enum env ns d s x q xs hh ht hn =>
    have key : Only all env ns (.dict d) (env ++ [(s, ns, .dict d)]) (.dict d) := by
      intro m reg t reg' rest h hall hk
      cases m with
      | zero => simp [parseF] at h
      | succ m =>
        rw [parseF_dict hh ht] at h
        have h1 : ∀ a, Avro.primitive "enum" a = .none := fun a => primitive_none a (by decide)
        simp only [parseType, ht.type, h1, parseComplex, String.reduceEq, if_false, if_true, hn, attrsOf_attrs] at h
        obtain ⟨rfl, h2, rfl⟩ := registered_named (x := x) rfl h
        have hx : ∀ (r : Registry) y, HoldsIn r (.enum (.list xs) (Avro.Spec.attrs (some (s, x)) d)) y →
            Loose all ns (.dict d) y := by
          intro r y hd
          cases hd with
          | leaf _ hd =>
            cases hd with
            | enum hz => exact .enum ht.type hn hz
        have hdir : Direct (.enum (.list xs) (Avro.Spec.attrs (some (s, x)) d)) := by intro r a h; cases h
        exact ⟨hk.define hall h2 hdir (hx _), ⟨_, rfl⟩, fun _ => hdir, fun y more => hx _ y⟩
    exact ⟨key, fun hi fd x hf => only_nested hi hf key⟩
  | @array env ns d v env' ha ht hn _ ih =>
    have key : Only all env ns (.dict d) env' (.dict d) := by
      intro m reg t reg' rest h hall hk
      cases m with
      | zero => simp [parseF] at h
      | succ m =>
        rw [parseF_dict (anonymous_header ha) ht] at h
        have h1 : ∀ a, Avro.primitive "array" a = .none := fun a => primitive_none a (by decide)
        simp only [parseType, ht.type, h1, parseComplex, String.reduceEq, if_false, if_true, hn] at h
        obtain ⟨⟨u, reg1⟩, h2, h⟩ := ok_bind h
        obtain ⟨g1, ⟨new, rfl⟩, g3, g4⟩ := ih.1 m reg u reg1 rest h2 hall hk
        obtain ⟨rfl, new', rfl⟩ := registered_ok h
        refine ⟨g1.grow _, ⟨_, List.append_assoc ..⟩, fun _ r a h => (by cases h), fun y more hd => ?_⟩
        rw [List.append_assoc] at hd
        cases hd with
        | leaf hc => simp [Recap.Spec.children] at hc
        | list hxs => exact .array ht.type hn fun z hz => g4 z _ (hxs z hz)
    exact ⟨key, fun hi fd x hf => only_nested hi hf key⟩
  | @map env ns d v env' ha ht hn _ ih =>
    have key : Only all env ns (.dict d) env' (.dict d) := by
      intro m reg t reg' rest h hall hk
      cases m with
      | zero => simp [parseF] at h
      | succ m =>
        rw [parseF_dict (anonymous_header ha) ht] at h
        have h1 : ∀ a, Avro.primitive "map" a = .none := fun a => primitive_none a (by decide)
        simp only [parseType, ht.type, h1, parseComplex, String.reduceEq, if_false, if_true, hn] at h
        obtain ⟨⟨u, reg1⟩, h2, h⟩ := ok_bind h
        obtain ⟨g1, ⟨new, rfl⟩, g3, g4⟩ := ih.1 m reg u reg1 rest h2 hall hk
        obtain ⟨rfl, new', rfl⟩ := registered_ok h
        refine ⟨g1.grow _, ⟨_, List.append_assoc ..⟩, fun _ r a h => (by cases h), fun y more hd => ?_⟩
        rw [List.append_assoc] at hd
        cases hd with
        | leaf hc => simp [Recap.Spec.children] at hc
        | map hk1 hv1 => exact .map ht.type hn (fun p hp => primitive_back .string rfl (hk1 p hp)) fun p hp => g4 _ _ (hv1 p hp)
    exact ⟨key, fun hi fd x hf => only_nested hi hf key⟩
  | @record env ns d s x q vs ws env' hh ht hn hf _ ih =>
    have key : Only all env ns (.dict d) (env' ++ [(s, ns, .dict d)]) (.dict d) := by
      intro m reg t reg' rest h hall hk
      cases m with
      | zero => simp [parseF] at h
      | succ m =>
        rw [parseF_dict hh ht] at h
        have h1 : ∀ a, Avro.primitive "record" a = .none := fun a => primitive_none a (by decide)
        simp only [parseType, ht.type, h1, parseComplex, String.reduceEq, if_false, if_true, hn, PyVal.iter, attrsOf_attrs] at h
        obtain ⟨_, hv, h⟩ := ok_bind h
        cases hv
        obtain ⟨⟨ts, reg1⟩, h2, h⟩ := ok_bind h
        obtain ⟨g1, ⟨new, rfl⟩, g3, g4⟩ := ih.2 (header_inner hh) vs hf m reg ts reg1 ([(s, ns, .dict d)] ++ rest) h2
          (by rw [hall, List.append_assoc]) hk
        obtain ⟨rfl, h3, rfl⟩ := registered_named (x := x) rfl h
        have hx : ∀ y more, HoldsIn (reg ++ new ++ more) (.struct ts (Avro.Spec.attrs (some (s, x)) d)) y →
            Loose all ns (.dict d) y := by
          intro y more hd
          have : ∃ xs, y = .struct xs ∧ ts.length = xs.length ∧ ∀ (i : Nat) f x, ts[i]? = some f → xs[i]? = some x →
              HoldsIn (reg ++ new ++ more) f x := by
            cases hd with
            | leaf hc hd =>
              simp [Recap.Spec.children] at hc
              subst hc
              cases hd with
              | struct h => exact ⟨_, rfl, h, by simp⟩
            | struct h1 h2 => exact ⟨_, rfl, h1, h2⟩
          obtain ⟨xs, rfl, hl, hxs⟩ := this
          refine .record ht.type hh hn (fieldTypes_of hf) (by omega) fun i w z hw hz => ?_
          have hi : i < ts.length := by
            have := (List.getElem?_eq_some_iff.mp hz).1
            omega
          exact g4 i w ts[i] z more hw (List.getElem?_eq_getElem hi) (hxs i _ z (List.getElem?_eq_getElem hi) hz)
        have hdir : Direct (.struct ts (Avro.Spec.attrs (some (s, x)) d)) := by intro r a h; cases h
        refine ⟨g1.define hall h3 hdir fun y hd => ?_, ⟨_, List.append_assoc ..⟩, fun _ => hdir, fun y more hd => ?_⟩
        · exact hx y [] (by rwa [List.append_nil])
        · rw [List.append_assoc] at hd
          exact hx y _ hd
    exact ⟨key, fun hi fd x hf => only_nested hi hf key⟩
  | nil =>
    refine ⟨?_, fun hi fs hf => ?_⟩
    · intro m reg ts reg' rest h _ hk
      simp only [Avro.parseAll] at h
      cases h
      exact ⟨hk, ⟨[], by simp⟩, rfl, by simp⟩
    · cases hf
      intro m reg ts reg' rest h _ hk
      simp only [Avro.parseAll] at h
      cases h
      exact ⟨hk, ⟨[], by simp⟩, rfl, by simp⟩
  | @cons env ns v vs env' env'' h1 h2 ih1 ih2 =>
    have key : ∀ w ws, Only all env ns v env' w → OnlyAll all env' ns vs env'' ws →
        OnlyAll all env ns (v :: vs) env'' (w :: ws) := by
      intro w ws g1 g2 m reg ts reg' rest h hall hk
      simp only [Avro.parseAll] at h
      obtain ⟨⟨t, reg1⟩, e1, h⟩ := ok_bind h
      obtain ⟨⟨ts', reg2⟩, e2, h⟩ := ok_bind h
      cases h
      obtain ⟨new, hnew⟩ := orderedAll_grows h2
      obtain ⟨k1, ⟨n1, rfl⟩, -, k4⟩ := g1 m reg t reg1 (new ++ rest) e1 (by rw [hall, hnew, List.append_assoc]) hk
      obtain ⟨l1, ⟨n2, rfl⟩, l3, l4⟩ := g2 m _ ts' _ rest e2 hall k1
      refine ⟨l1, ⟨_, List.append_assoc ..⟩, by simp [l3], fun i v' t' x more hv ht hx => ?_⟩
      cases i with
      | zero =>
        simp at hv ht
        subst hv ht
        rw [List.append_assoc] at hx
        exact k4 x _ hx
      | succ i => exact l4 i v' t' x more (by simpa using hv) (by simpa using ht) hx
    refine ⟨key _ _ ih1.1 ih2.1, fun hi fs hf => ?_⟩
    cases hf with
    | cons f1 f2 f3 f4 f5 => exact key _ _ (ih1.2 hi _ _ ⟨f1, f2, f3, f4⟩) (ih2.2 hi _ f5)

end Recap.AvroData
