import Verif.ProtobufParse

/-!
# Lemmas about Protobuf files whose references can be resolved
-/

set_option autoImplicit false

namespace Recap.Protobuf

open Recap.Protobuf.Spec Recap.Spec

mutual
/-- The references in a type can be resolved or need not be: they are to `root`, to `self`, to names with
`L` in the live registry or to names in their own registry. -/
def Ok (root self : String) (L : String → Prop) : RType → Prop
  | .list t _ _ _ => Ok root self L t
  | .map k t _ => Ok root self L k ∧ Ok root self L t
  | .struct fs _ => OkAll root self L fs
  | .union ts _ => OkAll root self L ts
  | .proxy .none a => Plus a.extra ∧ ∃ s, a.alias = .str s ∧ (s = root ∨ s = self ∨ L s)
  | .proxy (some reg) a => (Plus a.extra ∧ ∃ s, a.alias = .str s ∧
      (s = root ∨ s = self ∨ s ∈ Spec.names reg)) ∧ OkReg root reg
  | _ => True
def OkAll (root self : String) (L : String → Prop) : List RType → Prop
  | [] => True
  | t :: ts => Ok root self L t ∧ OkAll root self L ts
def OkReg (root : String) : List (String × RType) → Prop
  | [] => True
  | (s, t) :: ts => (s = root ∨ ((∀ r a, t ≠ .proxy r a) ∧ Ok root s (fun _ => False) t)) ∧ OkReg root ts
end

theorem okReg_append {root : String} {a b : List (String × RType)} : OkReg root (a ++ b) ↔ OkReg root a ∧ OkReg root b := by
  induction a with
  | nil => simp [OkReg]
  | cons kt a ih =>
    obtain ⟨k, t⟩ := kt
    simp only [List.cons_append, OkReg, ih, and_assoc]

theorem okReg_find {root : String} {reg : Registry} {s : String} {t : RType} (hr : OkReg root reg)
    (h : Registry.find? reg s = some t) : s = root ∨ ((∀ r a, t ≠ .proxy r a) ∧ Ok root s (fun _ => False) t) := by
  induction reg with
  | nil => simp [Registry.find?] at h
  | cons kt reg ih =>
    obtain ⟨k, u⟩ := kt
    simp only [OkReg, Registry.find?] at *
    split at h
    · rename_i hk
      cases h
      subst hk
      exact hr.1
    · exact ih hr.2 h

mutual
theorem ok_mono {root self : String} {L L' : String → Prop} (hl : ∀ s, L s → L' s) : ∀ t : RType,
    Ok root self L t → Ok root self L' t
  | .list t _ _ _, h => by simp only [Ok] at *; exact ok_mono hl t h
  | .map k t _, h => by simp only [Ok] at *; exact ⟨ok_mono hl k h.1, ok_mono hl t h.2⟩
  | .struct fs _, h => by simp only [Ok] at *; exact okAll_mono hl fs h
  | .union ts _, h => by simp only [Ok] at *; exact okAll_mono hl ts h
  | .proxy .none _, h => by
    simp only [Ok] at *
    obtain ⟨h1, s, h2, h3⟩ := h
    exact ⟨h1, s, h2, h3.imp_right (·.imp_right (hl s))⟩
  | .proxy (some r) _, h => by simp only [Ok] at *; exact h
  | .null _, _ => trivial
  | .bool _, _ => trivial
  | .int .., _ => trivial
  | .float .., _ => trivial
  | .string .., _ => trivial
  | .bytes .., _ => trivial
  | .enum .., _ => trivial
theorem okAll_mono {root self : String} {L L' : String → Prop} (hl : ∀ s, L s → L' s) : ∀ ts : List RType,
    OkAll root self L ts → OkAll root self L' ts
  | [], _ => trivial
  | t :: ts, h => by simp only [OkAll] at *; exact ⟨ok_mono hl t h.1, okAll_mono hl ts h.2⟩
end

mutual
/-- References that can be resolved in a registry can be resolved in its copy. -/
theorem fresh_ok {root self : String} {reg : Registry} {P L : String → Prop} (hr : OkReg root reg)
    (hp : ∀ s, P s → s = root ∨ s = self ∨ s ∈ Spec.names reg) : ∀ t : RType, Fresh P t →
    Ok root self L (t.deepcopy reg)
  | .list t _ _ _, h => by simp only [RType.deepcopy, Ok, Fresh] at *; exact fresh_ok hr hp t h
  | .map k t _, h => by
    simp only [RType.deepcopy, Ok, Fresh] at *
    exact ⟨fresh_ok hr hp k h.1, fresh_ok hr hp t h.2⟩
  | .struct fs _, h => by simp only [RType.deepcopy, Ok, Fresh] at *; exact fresh_okAll hr hp fs h
  | .union ts _, h => by simp only [RType.deepcopy, Ok, Fresh] at *; exact fresh_okAll hr hp ts h
  | .proxy .none _, h => by
    simp only [RType.deepcopy, Ok, Fresh] at *
    obtain ⟨h1, s, h2, h3⟩ := h
    exact ⟨⟨h1, s, h2, hp s h3⟩, hr⟩
  | .proxy (some r) _, h => by simp only [Fresh] at h
  | .null _, _ => trivial
  | .bool _, _ => trivial
  | .int .., _ => trivial
  | .float .., _ => trivial
  | .string .., _ => trivial
  | .bytes .., _ => trivial
  | .enum .., _ => trivial
theorem fresh_okAll {root self : String} {reg : Registry} {P L : String → Prop} (hr : OkReg root reg)
    (hp : ∀ s, P s → s = root ∨ s = self ∨ s ∈ Spec.names reg) : ∀ ts : List RType, FreshAll P ts →
    OkAll root self L (RType.deepcopyList reg ts)
  | [], _ => trivial
  | t :: ts, h => by
    simp only [RType.deepcopyList, OkAll, FreshAll] at *
    exact ⟨fresh_ok hr hp t h.1, fresh_okAll hr hp ts h.2⟩
end

mutual
theorem fresh_live {root self : String} {P : String → Prop} : ∀ t : RType, Fresh P t → Ok root self P t
  | .list t _ _ _, h => by simp only [Ok, Fresh] at *; exact fresh_live t h
  | .map k t _, h => by simp only [Ok, Fresh] at *; exact ⟨fresh_live k h.1, fresh_live t h.2⟩
  | .struct fs _, h => by simp only [Ok, Fresh] at *; exact fresh_liveAll fs h
  | .union ts _, h => by simp only [Ok, Fresh] at *; exact fresh_liveAll ts h
  | .proxy .none _, h => by
    simp only [Ok, Fresh] at *
    obtain ⟨h1, s, h2, h3⟩ := h
    exact ⟨h1, s, h2, .inr (.inr h3)⟩
  | .proxy (some r) _, h => by simp only [Fresh] at h
  | .null _, _ => trivial
  | .bool _, _ => trivial
  | .int .., _ => trivial
  | .float .., _ => trivial
  | .string .., _ => trivial
  | .bytes .., _ => trivial
  | .enum .., _ => trivial
theorem fresh_liveAll {root self : String} {P : String → Prop} : ∀ ts : List RType, FreshAll P ts → OkAll root self P ts
  | [], _ => trivial
  | t :: ts, h => by
    simp only [OkAll, FreshAll] at *
    exact ⟨fresh_live t h.1, fresh_liveAll ts h.2⟩
end

theorem ok_withAttrs {root self : String} {L : String → Prop} {t : RType} {a : Attrs} (hp : ∀ r a, t ≠ .proxy r a) :
    Ok root self L (t.withAttrs a) ↔ Ok root self L t := by
  cases t <;> first | rfl | exact absurd rfl (hp _ _)

/-! ## Resolving -/

theorem back_mono {R R' : List PyVal} (h : ∀ x ∈ R, x ∈ R') : ∀ x ∈ R, x ∈ back R R' := by
  intro x hx
  unfold back
  rw [if_neg (by rintro rfl; simp at hx)]
  exact h x hx

theorem look_mono {t : RType} {S : List PyVal} : ∀ x ∈ S, x ∈ look t S := by
  intro x hx
  unfold look
  split
  · exact hx
  · split
    · exact hx
    · exact mem_add.mpr (.inl hx)

theorem resolveAll_ready {root self : String} {L : String → Prop}
    {f : RType → List PyVal → List PyVal → Except PyErr (RType × List PyVal × List PyVal)} {ts : List RType}
    (hf : ∀ t ∈ ts, ∀ R S, .str root ∈ S → (PyVal.str self ∈ R ∨ .str self ∈ S) →
      ∃ t' R' S', f t R S = .ok (t', R', S') ∧ (∀ x ∈ R, x ∈ R') ∧ ∀ x ∈ S, x ∈ S') :
    ∀ {R S : List PyVal}, .str root ∈ S → (PyVal.str self ∈ R ∨ .str self ∈ S) →
      ∃ ts' R' S', resolveAll f ts R S = .ok (ts', R', S') ∧ (∀ x ∈ R, x ∈ R') ∧ ∀ x ∈ S, x ∈ S' := by
  induction ts with
  | nil => intro R S _ _; exact ⟨[], R, S, rfl, fun _ h => h, fun _ h => h⟩
  | cons t ts ih =>
    intro R S h1 h2
    obtain ⟨t', R1, S1, h3, h4, h5⟩ := hf t (by simp) R S h1 h2
    obtain ⟨ts', R2, S2, h6, h7, h8⟩ := ih (fun t ht => hf t (by simp [ht])) (h5 _ h1) (h2.imp (h4 _) (h5 _))
    refine ⟨t' :: ts', R2, S2, ?_, fun x hx => h7 x (h4 x hx), fun x hx => h8 x (h5 x hx)⟩
    simp only [resolveAll, h3, h6, bind, Except.bind, pure, Except.pure]

theorem okAll_mem {root self : String} {L : String → Prop} {ts : List RType} (h : OkAll root self L ts) :
    ∀ t ∈ ts, Ok root self L t := by
  induction ts with
  | nil => simp
  | cons t ts ih =>
    simp only [OkAll] at h
    intro u hu
    rcases List.mem_cons.mp hu with rfl | hu
    · exact h.1
    · exact ih h.2 u hu

theorem names_find {reg : Registry} {s : String} (h : s ∈ Spec.names reg) : ∃ t, Registry.find? reg s = some t :=
  Option.isSome_iff_exists.mp ((find?_isSome_iff reg s).mpr h)

/-- What `follow` does with references that can be resolved. -/
theorem follow_ready {live : Registry} {root self : String} {L : String → Prop} (hl : OkReg root live) (hs : SealedReg live)
    (hL : ∀ s, L s → s ∈ Spec.names live) {t : RType} {R S : List PyVal} (ht : Ok root self L t) (hlo : Loose t)
    (h1 : .str root ∈ S) (h2 : PyVal.str self ∈ R ∨ .str self ∈ S) :
    ∃ u R1 self', follow live t R S = .ok (u, R1) ∧ Loose u ∧
      weight (weightReg 0 live) u ≤ weight (weightReg 0 live) t ∧ Ok root self' L u ∧
      (∀ x ∈ R, x ∈ R1) ∧ (PyVal.str self' ∈ R1 ∨ .str self' ∈ S) := by
  by_cases hp : ∃ r a, t = .proxy r a
  · obtain ⟨r, a, rfl⟩ := hp
    simp only [follow]
    split
    · exact ⟨_, R, self, rfl, hlo, Nat.le_refl _, ht, fun _ h => h, h2⟩
    · rename_i hn
      have h3 : Plus a.extra ∧ OkReg root (r.getD live) ∧ SealedReg (r.getD live) ∧ ∃ s, a.alias = .str s ∧
          (s = root ∨ s = self ∨ s ∈ Spec.names (r.getD live)) := by
        cases r with
        | none =>
          simp only [Ok] at ht
          obtain ⟨h3, s, h4, h5⟩ := ht
          exact ⟨h3, hl, hs, s, h4, h5.imp_right (·.imp_right (hL s))⟩
        | some r =>
          simp only [Ok] at ht
          simp only [Loose] at hlo
          exact ⟨ht.1.1, ht.2, hlo, ht.1.2⟩
      obtain ⟨h3, h4, h5, s, h6, h7⟩ := h3
      rw [h6] at hn
      have hroot : s ≠ root := by rintro rfl; exact hn (.inr h1)
      have hself : s ≠ self := by rintro rfl; exact hn h2
      have h8 : s ∈ Spec.names (r.getD live) := by
        rcases h7 with h | h | h
        · exact absurd h hroot
        · exact absurd h hself
        · exact h
      obtain ⟨t, h9⟩ := names_find h8
      obtain ⟨e, h10⟩ := resolve_find h6 h3 h9
      obtain ⟨h11, h12⟩ := resolve_lighter hs hlo h10
      rcases okReg_find h4 h9 with h | ⟨h13, h14⟩
      · exact absurd h hroot
      · rw [h10]
        have h15 := deepcopy_sealed (r.getD live) t (sealedReg_find h5 h9).1
        rw [h15] at h11 h12 ⊢
        generalize { t.attrs with extra := e } = b at h11 h12 ⊢
        have h16 := withAttrs_other (a := b) h13
        refine ⟨_, _, s, rfl, ?_, ?_, ?_, fun x hx => mem_add.mpr (.inl hx), .inl (mem_add.mpr (.inr h6.symm))⟩
        · cases t <;> first | exact h11 | exact absurd rfl (h13 _ _)
        · rw [weight_withAttrs]
          exact Nat.le_of_lt h12
        · rw [ok_withAttrs h16, ok_withAttrs h13]
          exact ok_mono (fun _ h => h.elim) t h14
  · rw [follow_other (fun r a h => hp ⟨r, a, h⟩)]
    exact ⟨t, R, self, rfl, hlo, Nat.le_refl _, ht, fun _ h => h, h2⟩

/-- Types whose references can be resolved are resolved. -/
theorem resolveF_ready {live : Registry} {root : String} {L : String → Prop} (hl : OkReg root live) (hs : SealedReg live)
    (hL : ∀ s, L s → s ∈ Spec.names live) (n : Nat) : ∀ (t : RType) (R S : List PyVal) (self : String),
    Ok root self L t → Loose t → weight (weightReg 0 live) t ≤ n → .str root ∈ look t S →
    (PyVal.str self ∈ R ∨ .str self ∈ look t S) →
    ∃ t' R' S', resolveF live n t R S = .ok (t', R', S') ∧ (∀ x ∈ R, x ∈ R') ∧ ∀ x ∈ S, x ∈ S' := by
  induction n with
  | zero =>
    intro t R S self _ _ hw
    have := weight_pos (weightReg 0 live) t
    omega
  | succ n ih =>
    intro t R S self ht hlo hw h1 h2
    obtain ⟨u, R1, self', h3, h4, h5, h6, h7, h8⟩ := follow_ready hl hs hL ht hlo h1 h2
    have hlook : ∀ v x, x ∈ look t S → x ∈ look v (look t S) := fun v x h => look_mono x h
    have go : ∀ v, Ok root self' L v → Loose v → weight (weightReg 0 live) v ≤ n → ∀ R2 S2, .str root ∈ S2 →
        (PyVal.str self' ∈ R2 ∨ .str self' ∈ S2) →
        ∃ t' R' S', resolveF live n v R2 S2 = .ok (t', R', S') ∧ (∀ x ∈ R2, x ∈ R') ∧ ∀ x ∈ S2, x ∈ S' :=
      fun v g1 g2 g3 R2 S2 g4 g5 => ih v R2 S2 self' g1 g2 g3 (look_mono _ g4) (g5.imp_right (look_mono _))
    rw [resolveF, h3]
    cases u
    case list v l w a =>
      simp only [Ok, Loose, weight] at h4 h5 h6
      obtain ⟨v', R2, S2, g1, g2, g3⟩ := go v h6 h4 (by omega) R1 (look t S) h1 h8
      refine ⟨.list v' l w a, back R R2, back S S2, ?_, back_mono (fun x hx => g2 x (h7 x hx)),
        back_mono (fun x hx => g3 x (look_mono x hx))⟩
      simp only [bind, Except.bind, g1, pure, Except.pure]
    case map k v a =>
      simp only [Ok, Loose, weight] at h4 h5 h6
      obtain ⟨k', R2, S2, g1, g2, g3⟩ := go k h6.1 h4.1 (by omega) R1 (look t S) h1 h8
      obtain ⟨v', R3, S3, g4, g5, g6⟩ := go v h6.2 h4.2 (by omega) R2 S2 (g3 _ h1) (h8.imp (g2 _) (g3 _))
      refine ⟨.map k' v' a, back R R3, back S S3, ?_, back_mono (fun x hx => g5 x (g2 x (h7 x hx))),
        back_mono (fun x hx => g6 x (g3 x (look_mono x hx)))⟩
      simp only [bind, Except.bind, g1, g4, pure, Except.pure]
    case union ts a =>
      simp only [Ok, Loose, weight] at h4 h5 h6
      obtain ⟨ts', R2, S2, g1, g2, g3⟩ := resolveAll_ready (L := L) (f := resolveF live n) (ts := ts) (root := root) (self := self')
        (fun v hv => go v (okAll_mem h6 v hv) (loose_mem h4 v hv) (by have := weight_mem (l := weightReg 0 live) v hv; omega))
        h1 h8
      refine ⟨.union ts' a, back R R2, back S S2, ?_, back_mono (fun x hx => g2 x (h7 x hx)), back_mono (fun x hx => g3 x (look_mono x hx))⟩
      simp only [bind, Except.bind, g1, pure, Except.pure]
    case struct ts a =>
      simp only [Ok, Loose, weight] at h4 h5 h6
      obtain ⟨ts', R2, S2, g1, g2, g3⟩ := resolveAll_ready (L := L) (f := resolveF live n) (ts := ts) (root := root) (self := self')
        (fun v hv => go v (okAll_mem h6 v hv) (loose_mem h4 v hv) (by have := weight_mem (l := weightReg 0 live) v hv; omega))
        h1 h8
      refine ⟨.struct ts' a, back R R2, back S S2, ?_, back_mono (fun x hx => g2 x (h7 x hx)), back_mono (fun x hx => g3 x (look_mono x hx))⟩
      simp only [bind, Except.bind, g1, pure, Except.pure]
    all_goals
      exact ⟨_, back R R1, back S (look t S), rfl, back_mono h7, back_mono look_mono⟩

/-! ## Registering -/

/-- A message or enum can be registered after those with the names `known`. -/
def Fine (ns root : String) (known : List String) (e : Elem) : Prop :=
  ∃ n, Spec.nameOf e = some n ∧ ns ++ "." ++ n ∉ known ∧ aliasOk (ns ++ "." ++ n) = true ∧
    ∀ es, e = .message n es →
      (∀ name k key value, .mapField name k key value ∈ es → ∃ t, Spec.scalar key = some t ∧ Key t) ∧
      (n ≠ root → ∀ s, Refs ns (typesAll es) s → s = ns ++ "." ++ root ∨ s = ns ++ "." ++ n ∨ s ∈ known)

/-- Messages and enums can be registered one after the other. -/
def Ready (ns root : String) : List String → List Elem → Prop
  | _, [] => True
  | known, e :: es => Fine ns root known e ∧ Ready ns root (known ++ fulls ns [e]) es

theorem ready_append {ns root : String} {a b : List Elem} : ∀ {known : List String},
    Ready ns root known (a ++ b) ↔ Ready ns root known a ∧ Ready ns root (known ++ fulls ns a) b := by
  induction a with
  | nil => intro known; simp [Ready, fulls]
  | cons e a ih =>
    intro known
    simp only [List.cons_append, Ready, ih, and_assoc]
    rw [show e :: a = [e] ++ a from rfl, fulls_append, List.append_assoc]

theorem typeOf_some (ns s : String) : ∃ t, typeOf (some ns) s = .ok t := by
  unfold typeOf
  split
  · exact ⟨_, rfl⟩
  · split <;> exact ⟨_, rfl⟩

theorem oneofTypes_some (ns : String) (es : List Elem) : ∃ ts, oneofTypes (some ns) es = .ok ts := by
  induction es with
  | nil => exact ⟨_, rfl⟩
  | cons e es ih =>
    obtain ⟨ts, h⟩ := ih
    cases e
    case field name k s card =>
      obtain ⟨t, ht⟩ := typeOf_some ns s
      exact ⟨fieldType t (some .required) name :: ts, by simp only [oneofTypes, ht, h, bind, Except.bind, pure, Except.pure]⟩
    all_goals
      exact ⟨ts, by simp only [oneofTypes, h]⟩

theorem mapType_some {ns key value : String} {name : PyVal} {t : RType} (h : Spec.scalar key = some t) (hk : Key t) :
    ∃ t, mapType (some ns) name key value = .ok t := by
  unfold mapType
  have : typeOf (some ns) key = .ok t := by
    unfold typeOf
    rw [scalars_lookup, h]
  have hk' : isKey t = true := by cases t <;> first | rfl | exact hk.elim
  obtain ⟨v, hv⟩ := typeOf_some ns value
  refine ⟨if name = .none then .union [.null {}, .map t v {}] { extra := [("default", .none)] } else
    setExtra (.union [.null {}, .map t v {}] { extra := [("default", .none)] }) "name" name, ?_⟩
  simp only [this, hv, hk', bind, Except.bind, pure, Except.pure]
  rfl

theorem registerAlias_some {reg : Registry} {t : RType} {s : String} (h : t.attrs.alias = .str s)
    (hn : s ∉ Spec.names reg) (ha : aliasOk s = true) :
    reg.registerAlias t = .ok (reg ++ [(s, Registry.stored reg t)]) := by
  unfold Registry.registerAlias
  rw [h]
  have : ¬ (reg.find? s).isSome = true := fun h => hn ((find?_isSome_iff reg s).mp h)
  simp only [this, ha]
  rfl

theorem parseEnum_ready {ns root name : String} {values : List (PyVal × Int)} {reg : Registry}
    (h : Fine ns root (Spec.names reg) (.enum name values)) (hr : OkReg (ns ++ "." ++ root) reg) :
    ∃ reg', parseEnum (some ns) name values reg = .ok reg' ∧ OkReg (ns ++ "." ++ root) reg' := by
  obtain ⟨n, h1, h2, h3, -⟩ := h
  cases h1
  have := registerAlias_some (t := .enum (.list (values.map (·.1))) { alias := .str (ns ++ "." ++ name) }) rfl h2 h3
  exact ⟨_, this, okReg_append.mpr ⟨hr, .inr ⟨by simp [Registry.stored, RType.deepcopy, RType.withAttrs], trivial⟩, trivial⟩⟩

theorem register_ready {ns root name : String} {es : List Elem} {fs : List RType} {reg : Registry}
    (h : Fine ns root (Spec.names reg) (.message name es)) (hr : OkReg (ns ++ "." ++ root) reg)
    (hf : FreshAll (Refs ns (typesAll es)) fs) :
    ∃ t reg', register (some ns) name fs reg = .ok (t, reg') ∧ OkReg (ns ++ "." ++ root) reg' := by
  obtain ⟨n, h1, h2, h3, h4⟩ := h
  cases h1
  have hreg := registerAlias_some (t := .struct fs { alias := .str (ns ++ "." ++ name) }) rfl h2 h3
  refine ⟨.struct fs { alias := .str (ns ++ "." ++ name) },
    reg ++ [(ns ++ "." ++ name, reg.stored (.struct fs { alias := .str (ns ++ "." ++ name) }))], ?_, ?_⟩
  · simp only [register, hreg, bind, Except.bind, pure, Except.pure]
  · refine okReg_append.mpr ⟨hr, ?_, trivial⟩
    by_cases hn : name = root
    · exact .inl (by rw [hn])
    · refine .inr ⟨by simp [Registry.stored, RType.deepcopy, RType.withAttrs], ?_⟩
      exact fresh_okAll hr ((h4 es rfl).2 hn) fs hf

mutual
theorem parseElem_ready {ns root : String} : ∀ (e : Elem) {reg : Registry},
    Ready ns root (Spec.names reg) (inner e) → OkReg (ns ++ "." ++ root) reg →
    (∀ name k key value, e = .mapField name k key value → ∃ t, Spec.scalar key = some t ∧ Key t) →
    ∃ fs reg', parseElem (some ns) e reg = .ok (fs, reg') ∧ OkReg (ns ++ "." ++ root) reg'
  | .field name k s card, reg, h, hr, hk => by
    obtain ⟨t, ht⟩ := typeOf_some ns s
    exact ⟨[fieldType t card name], reg, by simp only [parseElem, ht, bind, Except.bind, pure, Except.pure], hr⟩
  | .mapField name k key value, reg, h, hr, hk => by
    obtain ⟨t, h1, h2⟩ := hk _ _ _ _ rfl
    obtain ⟨t, ht⟩ := mapType_some (ns := ns) (value := value) (name := name) h1 h2
    exact ⟨[t], reg, by simp only [parseElem, ht, bind, Except.bind, pure, Except.pure], hr⟩
  | .oneof name es, reg, h, hr, hk => by
    obtain ⟨t, ht⟩ := oneofTypes_some ns es
    exact ⟨[.union (.null {} :: t) { extra := [("name", name), ("default", .none)] }], reg, by simp only [parseElem, ht, bind, Except.bind, pure, Except.pure], hr⟩
  | .message name es, reg, h, hr, hk => by
    rw [inner, ready_append] at h
    obtain ⟨h1, h2, -⟩ := h
    have hkeys : ∀ name k key value, .mapField name k key value ∈ es → ∃ t, Spec.scalar key = some t ∧ Key t := by
      obtain ⟨_, h3, _, _, h4⟩ := h2
      cases h3
      exact (h4 es rfl).1
    obtain ⟨fs, reg1, h3, h4⟩ := parseElems_ready es h1 hr hkeys
    rw [← (parseElems_adds es h3).2.2] at h2
    obtain ⟨t, reg2, h5, h6⟩ := register_ready h2 h4 (parseElems_fresh h3)
    exact ⟨[], reg2, by simp only [parseElem, h3, h5, bind, Except.bind, pure, Except.pure], h6⟩
  | .enum name values, reg, h, hr, hk => by
    simp only [inner, Ready] at h
    obtain ⟨reg1, h1, h2⟩ := parseEnum_ready h.1 hr
    exact ⟨[], reg1, by simp only [parseElem, h1, bind, Except.bind, pure, Except.pure], h2⟩
  | .package _, reg, h, hr, hk => ⟨[], reg, by simp only [parseElem], hr⟩
  | .other, reg, h, hr, hk => ⟨[], reg, by simp only [parseElem], hr⟩
theorem parseElems_ready {ns root : String} : ∀ (es : List Elem) {reg : Registry},
    Ready ns root (Spec.names reg) (innerAll es) → OkReg (ns ++ "." ++ root) reg →
    (∀ name k key value, .mapField name k key value ∈ es → ∃ t, Spec.scalar key = some t ∧ Key t) →
    ∃ fs reg', parseElems (some ns) es reg = .ok (fs, reg') ∧ OkReg (ns ++ "." ++ root) reg'
  | [], reg, h, hr, hk => ⟨[], reg, by simp only [parseElems], hr⟩
  | e :: es, reg, h, hr, hk => by
    rw [innerAll, ready_append] at h
    obtain ⟨fs1, reg1, h1, h2⟩ := parseElem_ready e h.1 hr (fun name k key value he => hk name k key value (by simp [he]))
    have h3 := h.2
    rw [← (parseElem_adds e h1).2.2] at h3
    obtain ⟨fs2, reg2, h4, h5⟩ := parseElems_ready es h3 h2 (fun name k key value he => hk name k key value (by simp [he]))
    exact ⟨fs1 ++ fs2, reg2, by simp only [parseElems, h1, h4, bind, Except.bind, pure, Except.pure], h5⟩
end

theorem parseTop_ready {ns root : String} {es : List Elem} : ∀ {reg : Registry} (r : Option RType),
    Ready ns root (Spec.names reg) (innerAll es) → OkReg (ns ++ "." ++ root) reg →
    ∃ r' reg', parseTop (some ns) es r reg = .ok (r', reg') ∧ OkReg (ns ++ "." ++ root) reg' ∧
      (r.isSome = true ∨ (firstMessage es).isSome = true → r'.isSome = true) := by
  induction es with
  | nil => intro reg r _ hr; exact ⟨r, reg, by simp only [parseTop], hr, by simp [firstMessage]⟩
  | cons e es ih =>
    intro reg r h hr
    rw [innerAll, ready_append] at h
    cases e
    case message name xs =>
      obtain ⟨h1, h2⟩ := h
      rw [inner, ready_append] at h1
      obtain ⟨h1, h3, -⟩ := h1
      have hkeys : ∀ name k key value, .mapField name k key value ∈ xs → ∃ t, Spec.scalar key = some t ∧ Key t := by
        obtain ⟨_, h4, _, _, h5⟩ := h3
        cases h4
        exact (h5 xs rfl).1
      obtain ⟨fs, reg1, h4, h5⟩ := parseElems_ready xs h1 hr hkeys
      have hn := (parseElems_adds xs h4).2.2
      rw [← hn] at h3
      obtain ⟨t, reg2, h6, h7⟩ := register_ready h3 h5 (parseElems_fresh h4)
      have hn2 := (register_adds h6).2.2
      rw [inner, fulls_append, ← List.append_assoc, ← hn] at h2
      have h2' : Ready ns root (Spec.names reg2) (innerAll es) := by rw [hn2]; exact h2
      obtain ⟨r', reg3, h8, h9, h10⟩ := ih (some (r.getD t)) h2' h7
      refine ⟨r', reg3, ?_, h9, fun _ => h10 (.inl rfl)⟩
      simp only [parseTop, parseMessage, h4, h6, bind, Except.bind, h8]
    case enum name values =>
      obtain ⟨h1, h2⟩ := h
      simp only [inner, Ready] at h1
      obtain ⟨reg1, h3, h4⟩ := parseEnum_ready h1.1 hr
      have h2' : Ready ns root (Spec.names reg1) (innerAll es) := by rw [(parseEnum_adds h3).2.2]; exact h2
      obtain ⟨r', reg3, h8, h9, h10⟩ := ih r h2' h4
      refine ⟨r', reg3, ?_, h9, h10⟩
      simp only [parseTop, h3, bind, Except.bind, h8]
    all_goals
      simp only [inner, fulls, List.filterMap_nil, List.map_nil, List.append_nil] at h
      obtain ⟨r', reg3, h8, h9, h10⟩ := ih r h.2 hr
      exact ⟨r', reg3, by simp only [parseTop, h8], h9, h10⟩

theorem ready_of {ns root : String} {L : List Elem} : ∀ {known : List String},
    (∀ l e r, L = l ++ e :: r → Fine ns root (known ++ fulls ns l) e) → Ready ns root known L := by
  induction L with
  | nil => intro known _; trivial
  | cons e L ih =>
    intro known h
    refine ⟨by simpa [fulls] using h [] e L rfl, ih fun l x r hl => ?_⟩
    have := h (e :: l) x r (by rw [hl]; rfl)
    rwa [show e :: l = [e] ++ l from rfl, fulls_append, ← List.append_assoc] at this

theorem okReg_new (root : String) : OkReg root newRegistry := by
  simp [newRegistry, builtinAliases, OkReg, Ok]

/-- A file whose messages and enums can be registered, and whose root refers only to them, is read. -/
theorem toRecap_ready {c : Converter} {ns root : String} {file es : List Elem}
    (hns : (packageOf file).or c.namespaces.getLast? = some ns) (hroot : firstMessage file = some (root, es))
    (hc : OkReg (ns ++ "." ++ root) c.registry) (hse : SealedReg c.registry)
    (hr : Ready ns root (Spec.names c.registry) (innerAll file))
    (hrefs : ∀ s, Refs ns (typesAll es) s → s ∈ Spec.names c.registry ∨ s ∈ fulls ns (innerAll file)) :
    ∃ t c', toRecap c file = .ok (t, c') := by
  obtain ⟨r', reg, h1, h2, h3⟩ := parseTop_ready .none hr hc
  obtain ⟨t, rfl⟩ := Option.isSome_iff_exists.mp (h3 (.inr (by rw [hroot]; rfl)))
  have hent := entered_last c file
  rw [hns] at hent
  have hne : entered c file ≠ [] := by intro h; rw [h] at hent; simp at hent
  obtain ⟨h4, h5⟩ := parseTop_inv (inv_sealed ns) h1 hse
  have hadds := (parseTop_adds h1).2.2
  rcases h5 t rfl with h | ⟨-, name, xs, fs, h6, rfl, h7⟩
  · cases h
  rw [hroot] at h6
  cases h6
  have hok : Ok (ns ++ "." ++ root) (ns ++ "." ++ root) (Refs ns (typesAll es))
      (.struct fs { alias := .str (ns ++ "." ++ root) }) := fresh_liveAll fs h7
  obtain ⟨t', R', S', h8, -, -⟩ := resolveF_ready (L := Refs ns (typesAll es)) h2 h4
    (fun s hs => by rw [hadds]; exact List.mem_append.mpr (hrefs s hs)) _ _ [] [] _ hok (by exact (fresh_flatAll fs h7).2)
    (Nat.le_refl _) (by simp [look, add, RType.attrs]) (.inr (by simp [look, add, RType.attrs]))
  have h9 : ∃ fs a, t' = .struct fs a := by
    cases hw : weight (weightReg 0 reg) (.struct fs { alias := .str (ns ++ "." ++ root) }) with
    | zero => have := weight_pos (weightReg 0 reg) (.struct fs { alias := .str (ns ++ "." ++ root) }); omega
    | succ n =>
      rw [hw] at h8
      obtain ⟨u, R1, h1, h2⟩ := resolveF_succ h8
      rw [follow_other (by simp)] at h1
      cases h1
      rcases h2 with ⟨_, _, _, _, _, _, _, h, _⟩ | ⟨_, _, _, _, _, _, _, _, _, h, _⟩ | ⟨_, _, _, _, _, h, _⟩ |
        ⟨_, _, fs', _, _, h, h11, h12, _⟩ | ⟨h, _⟩
      · cases h
      · cases h
      · cases h
      · exact ⟨_, _, h12⟩
      · exact h.elim
  obtain ⟨fs', a, rfl⟩ := h9
  refine ⟨.struct fs' a, ⟨(entered c file).dropLast, reg⟩, ?_⟩
  unfold toRecap parse
  simp only [hent, h1, hne, if_false, bind, Except.bind, pure, Except.pure, resolveProxies, h8]

end Recap.Protobuf
