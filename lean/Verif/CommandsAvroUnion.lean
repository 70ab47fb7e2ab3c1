import Verif.CommandsAvro

/-! # Hive unions as Avro: helper lemmas for C117 -/

set_option autoImplicit false

namespace Recap.Hive

open RType Recap.Spec Recap.Avro Recap.Avro.Spec Recap.Commands.Spec

/-- The member besides null of what is made of a type that is neither void nor a union. -/
def Core (h : HType) (m : RType) : Prop :=
  parse {} h = .ok (.union [.null {}, m] { extra := [("default", .none)] })

/-- Flattening `k` times. -/
def flattenN : Nat → RType → RType
  | 0, t => t
  | k + 1, t => flatten (flattenN k t)

/-- What is made of an option. -/
def Image (p : HType × Nat) (m : RType) : Prop :=
  p.1 ≠ .prim .void ∧ (∀ hs, p.1 ≠ .union hs) ∧ ∃ m0, Core p.1 m0 ∧ m = flattenN p.2 m0

theorem core_of {x : Attrs} {h : HType} {t : RType} (hx : x = {} ∨ ∃ n c, x = columnAttrs n c) (hv : h ≠ .prim .void)
    (hu : ∀ ts, h ≠ .union ts) (hp : parse x h = .ok t) :
    ∃ m, Core h m ∧ t = .union [.null {}, m] { doc := x.doc, extra := ("default", .none) :: x.extra } := by
  unfold Core
  cases h with
  | prim p =>
    rw [Hive.parse] at hp ⊢
    cases p <;> simp only [primitive, bind, Except.bind, pure, Except.pure] at hp ⊢
    case void => exact absurd rfl hv
    all_goals cases hp
    all_goals rcases hx with rfl | ⟨n, c, rfl⟩
    all_goals exact ⟨_, rfl, rfl⟩
  | decimal p s =>
    rw [Hive.parse] at hp ⊢
    split at hp <;> cases hp
    rw [if_neg (by assumption)]
    rcases hx with rfl | ⟨n, c, rfl⟩
    all_goals exact ⟨_, rfl, rfl⟩
  | varchar k =>
    rw [Hive.parse] at hp ⊢
    cases hp
    rcases hx with rfl | ⟨n, c, rfl⟩
    all_goals exact ⟨_, rfl, rfl⟩
  | char k =>
    rw [Hive.parse] at hp ⊢
    cases hp
    rcases hx with rfl | ⟨n, c, rfl⟩
    all_goals exact ⟨_, rfl, rfl⟩
  | union ts => exact absurd rfl (hu ts)
  | map k v =>
    rw [Hive.parse] at hp ⊢
    obtain ⟨k', h1, hp⟩ := Relational.bind_ok hp
    obtain ⟨v', h2, hp⟩ := Relational.bind_ok hp
    cases hp
    rw [h1, h2]
    rcases hx with rfl | ⟨n, c, rfl⟩
    all_goals exact ⟨_, rfl, rfl⟩
  | list e =>
    rw [Hive.parse] at hp ⊢
    obtain ⟨k', h1, hp⟩ := Relational.bind_ok hp
    cases hp
    rw [h1]
    rcases hx with rfl | ⟨n, c, rfl⟩
    all_goals exact ⟨_, rfl, rfl⟩
  | struct fs =>
    rw [Hive.parse] at hp ⊢
    obtain ⟨k', h1, hp⟩ := Relational.bind_ok hp
    cases hp
    rw [h1]
    rcases hx with rfl | ⟨n, c, rfl⟩
    all_goals exact ⟨_, rfl, rfl⟩

/-- What is made of a primitive type. -/
def coreOf (c : Primitive) : RType :=
  match primitive {} c with
  | .ok t => t
  | .error _ => .null {}

theorem core_prim {c : Primitive} {m : RType} (h : Core (.prim c) m) : m = coreOf c := by
  unfold Core at h
  rw [Hive.parse] at h
  cases c <;> simp only [primitive, bind, Except.bind, pure, Except.pure] at h <;> cases h <;> rfl

theorem core_decimal {p s : Int} {m : RType} (h : Core (.decimal p s) m) :
    m = .bytes (.int 16) (.bool false)
      { logical := .str "build.recap.Decimal", extra := [("precision", .int p), ("scale", .int s)] } := by
  unfold Core at h
  rw [Hive.parse] at h
  split at h <;> cases h
  rfl

theorem core_varchar {n : Int} {m : RType} (h : Core (.varchar n) m) : m = .string (.int n) (.bool true) {} := by
  unfold Core at h
  rw [Hive.parse] at h
  cases h
  rfl

theorem core_char {n : Int} {m : RType} (h : Core (.char n) m) : m = .string (.int n) (.bool false) {} := by
  unfold Core at h
  rw [Hive.parse] at h
  cases h
  rfl

theorem core_map {k v : HType} {m : RType} (h : Core (.map k v) m) :
    ∃ k' v', parse {} k = .ok k' ∧ m = .map k' v' {} := by
  unfold Core at h
  rw [Hive.parse] at h
  obtain ⟨k', h1, h⟩ := Relational.bind_ok h
  obtain ⟨v', h2, h⟩ := Relational.bind_ok h
  cases h
  exact ⟨k', v', h1, rfl⟩

theorem core_list {e : HType} {m : RType} (h : Core (.list e) m) :
    ∃ e', parse {} e = .ok e' ∧ m = .list e' .none (.bool true) {} := by
  unfold Core at h
  rw [Hive.parse] at h
  obtain ⟨k', h1, h⟩ := Relational.bind_ok h
  cases h
  exact ⟨k', h1, rfl⟩

theorem core_struct {fs : List (String × HType)} {m : RType} (h : Core (.struct fs) m) :
    ∃ gs, m = .struct gs {} := by
  unfold Core at h
  rw [Hive.parse] at h
  obtain ⟨k', h1, h⟩ := Relational.bind_ok h
  cases h
  exact ⟨k', rfl⟩

/-! ### Flattening several times -/

theorem flattenN_same {t : RType} (h : flatten t = t) : ∀ k, flattenN k t = t
  | 0 => rfl
  | k + 1 => by rw [flattenN, flattenN_same h k, h]

/-- The attributes of a list after flattening `k` times. -/
def moved : Nat → Attrs
  | 0 => {}
  | k + 1 => misplaced (moved k)

theorem flattenN_list (e : RType) : ∀ k, flattenN k (.list e .none (.bool true) {}) =
    .list (flattenN k e) .none (.bool true) (moved k)
  | 0 => rfl
  | k + 1 => by rw [flattenN, flattenN_list e k, flatten]; rfl

theorem flattenN_map (k' v' : RType) : ∀ k, flattenN k (.map k' v' {}) = .map (flattenN k k') (flattenN k v') (moved k)
  | 0 => rfl
  | k + 1 => by rw [flattenN, flattenN_map k' v' k, flatten]; rfl

theorem flattenN_struct (fs : List RType) : ∀ k, ∃ gs, flattenN k (.struct fs {}) = .struct gs {}
  | 0 => ⟨_, rfl⟩
  | k + 1 => by
    obtain ⟨gs, h⟩ := flattenN_struct fs k
    rw [flattenN, h, flatten]
    exact ⟨_, rfl⟩

theorem flattenN_union (ts : List RType) (a : Attrs) : ∀ k, ∃ us, flattenN k (.union ts a) = .union us a
  | 0 => ⟨_, rfl⟩
  | k + 1 => by
    obtain ⟨gs, h⟩ := flattenN_union ts a k
    rw [flattenN, h, flatten]
    exact ⟨_, rfl⟩

theorem coreOf_same (c : Primitive) (k : Nat) : flattenN k (coreOf c) = coreOf c :=
  flattenN_same (by cases c <;> rfl) k

theorem moved_extra (k : Nat) : (moved (k + 1)).extra = [("extra_attrs", .dict (Dict.update (moved k).extra
    [("logical", .none), ("alias", .none), ("doc", .none)]))] := by
  cases k <;> rfl

theorem moved_eq : ∀ j k, Dict.pyEq (moved j).extra (moved k).extra = true → j = k
  | 0, 0, _ => rfl
  | 0, k + 1, h => by rw [moved_extra] at h; simp [moved, Dict.pyEq] at h
  | j + 1, 0, h => by rw [moved_extra] at h; simp [moved, Dict.pyEq] at h
  | j + 1, k + 1, h => by
    have ih := moved_eq j k
    rw [moved_extra, moved_extra] at h
    have e : ∀ i, Dict.update (moved (i + 1)).extra [("logical", PyVal.none), ("alias", .none), ("doc", .none)] =
        (moved (i + 1)).extra ++ [("logical", .none), ("alias", .none), ("doc", .none)] := by
      intro i
      rw [moved_extra]
      rfl
    cases j <;> cases k
    · rfl
    · rw [e, moved_extra] at h
      simp [moved, Dict.pyEq, PyVal.pyEq, PyVal.pyEqDict, Dict.update, Dict.set] at h
    · rw [e, moved_extra] at h
      simp [moved, Dict.pyEq, PyVal.pyEq, PyVal.pyEqDict, Dict.update, Dict.set] at h
    · rw [e, e, moved_extra, moved_extra] at h
      rw [ih]
      rw [moved_extra, moved_extra]
      simp [Dict.pyEq, PyVal.pyEq, PyVal.pyEqDict] at h ⊢
      exact h.1

/-! ### Options that are written alike -/

/-- The options are the same if one of them has an Avro schema. -/
def SameOption (p q : HType × Nat) : Prop :=
  AvroColumn p.1 ∨ AvroColumn q.1 → p.1 = q.1 ∧ (avroKind p.1 = "array" → p.2 = q.2)

theorem SameOption.symm {p q : HType × Nat} (h : SameOption p q) : SameOption q p := by
  intro hc
  obtain ⟨h1, h2⟩ := h hc.symm
  exact ⟨h1.symm, fun e => (h2 (h1 ▸ e)).symm⟩

theorem SameOption.trans {p q r : HType × Nat} (h : SameOption p q) (h' : SameOption q r) : SameOption p r := by
  intro hc
  rcases hc with hc | hc
  · obtain ⟨h1, h2⟩ := h (.inl hc)
    obtain ⟨h3, h4⟩ := h' (.inl (h1 ▸ hc))
    exact ⟨h1.trans h3, fun e => (h2 e).trans (h4 (h1 ▸ e))⟩
  · obtain ⟨h3, h4⟩ := h' (.inr hc)
    obtain ⟨h1, h2⟩ := h (.inr (h3 ▸ hc))
    exact ⟨h1.trans h3, fun e => (h2 e).trans (h4 (h1 ▸ e))⟩

theorem SameOption.refl (p : HType × Nat) : SameOption p p := fun _ => ⟨rfl, fun _ => rfl⟩

theorem prim_inj : ∀ c c' : Primitive, AvroColumn (.prim c) → c ≠ .void → c' ≠ .void →
    pyEq (coreOf c) (coreOf c') = true → c = c' := by
  intro c c' h h0 h1 h2
  cases c <;> first | (exact absurd rfl h0) | (exfalso; revert h; simp [AvroColumn]; done) | skip
  all_goals
    cases c' <;> first | rfl | (exact absurd rfl h1) | (exfalso; revert h2; decide +kernel)

/-- Options of which one has an Avro schema are the same if equal types are made of them. -/
theorem image_inj {p q : HType × Nat} {m m' : RType} (hp : Image p m) (hq : Image q m') (hc : AvroColumn p.1)
    (h : pyEq m m' = true) : p.1 = q.1 ∧ (avroKind p.1 = "array" → p.2 = q.2) := by
  obtain ⟨a, j⟩ := p
  obtain ⟨b, k⟩ := q
  obtain ⟨p1, p2, m0, p3, p4⟩ := hp
  obtain ⟨q1, q2, m1, q3, q4⟩ := hq
  simp only at p1 p2 p3 p4 q1 q2 q3 q4 hc ⊢
  cases b with
  | union hs => exact absurd rfl (q2 hs)
  | prim c' =>
    rw [core_prim q3, coreOf_same] at q4
    subst q4
    cases a with
    | prim c =>
      rw [core_prim p3, coreOf_same] at p4
      subst p4
      have := prim_inj c c' hc (by simpa using p1) (by simpa using q1) h
      subst this
      exact ⟨rfl, fun e => by cases c <;> simp [avroKind] at e⟩
    | decimal p s =>
      rw [core_decimal p3, flattenN_same rfl] at p4
      subst p4
      cases c' <;> simp [coreOf, primitive, pyEq, PyVal.pyEq] at h
    | varchar n =>
      rw [core_varchar p3, flattenN_same rfl] at p4
      subst p4
      cases c' <;> simp [coreOf, primitive, pyEq, PyVal.pyEq] at h
    | char n =>
      rw [core_char p3, flattenN_same rfl] at p4
      subst p4
      cases c' <;> simp [coreOf, primitive, pyEq, PyVal.pyEq] at h
    | list e =>
      obtain ⟨e', -, rfl⟩ := core_list p3
      rw [flattenN_list] at p4
      subst p4
      cases c' <;> simp [coreOf, primitive, pyEq] at h
    | _ => simp [AvroColumn] at hc
  | decimal p' s' =>
    rw [core_decimal q3, flattenN_same rfl] at q4
    subst q4
    cases a with
    | prim c =>
      rw [core_prim p3, coreOf_same] at p4
      subst p4
      cases c <;> simp [coreOf, primitive, pyEq, PyVal.pyEq] at h
    | decimal p s =>
      rw [core_decimal p3, flattenN_same rfl] at p4
      subst p4
      simp [pyEq, attrsEq, PyVal.pyEq, Dict.pyEq, PyVal.pyEqDict, Dict.get?] at h
      exact ⟨by simp_all, fun e => by simp [avroKind] at e⟩
    | varchar n =>
      rw [core_varchar p3, flattenN_same rfl] at p4
      subst p4
      simp [pyEq] at h
    | char n =>
      rw [core_char p3, flattenN_same rfl] at p4
      subst p4
      simp [pyEq] at h
    | list e =>
      obtain ⟨e', -, rfl⟩ := core_list p3
      rw [flattenN_list] at p4
      subst p4
      simp [pyEq] at h
    | _ => simp [AvroColumn] at hc
  | varchar n' =>
    rw [core_varchar q3, flattenN_same rfl] at q4
    subst q4
    cases a with
    | prim c =>
      rw [core_prim p3, coreOf_same] at p4
      subst p4
      cases c <;> simp [coreOf, primitive, pyEq, PyVal.pyEq] at h
    | decimal p s =>
      rw [core_decimal p3, flattenN_same rfl] at p4
      subst p4
      simp [pyEq] at h
    | varchar n =>
      rw [core_varchar p3, flattenN_same rfl] at p4
      subst p4
      simp [pyEq, attrsEq, PyVal.pyEq, Dict.pyEq, PyVal.pyEqDict] at h
      exact ⟨by simp_all, fun e => by simp [avroKind] at e⟩
    | char n =>
      rw [core_char p3, flattenN_same rfl] at p4
      subst p4
      simp [pyEq, PyVal.pyEq] at h
    | list e =>
      obtain ⟨e', -, rfl⟩ := core_list p3
      rw [flattenN_list] at p4
      subst p4
      simp [pyEq] at h
    | _ => simp [AvroColumn] at hc
  | char n' =>
    rw [core_char q3, flattenN_same rfl] at q4
    subst q4
    cases a with
    | prim c =>
      rw [core_prim p3, coreOf_same] at p4
      subst p4
      cases c <;> simp [coreOf, primitive, pyEq, PyVal.pyEq] at h
    | decimal p s =>
      rw [core_decimal p3, flattenN_same rfl] at p4
      subst p4
      simp [pyEq] at h
    | varchar n =>
      rw [core_varchar p3, flattenN_same rfl] at p4
      subst p4
      simp [pyEq, PyVal.pyEq] at h
    | char n =>
      rw [core_char p3, flattenN_same rfl] at p4
      subst p4
      simp [pyEq, attrsEq, PyVal.pyEq, Dict.pyEq, PyVal.pyEqDict] at h
      exact ⟨by simp_all, fun e => by simp [avroKind] at e⟩
    | list e =>
      obtain ⟨e', -, rfl⟩ := core_list p3
      rw [flattenN_list] at p4
      subst p4
      simp [pyEq] at h
    | _ => simp [AvroColumn] at hc
  | map k' v' =>
    obtain ⟨k'', v'', -, rfl⟩ := core_map q3
    rw [flattenN_map] at q4
    subst q4
    cases a with
    | prim c =>
      rw [core_prim p3, coreOf_same] at p4
      subst p4
      cases c <;> simp [coreOf, primitive, pyEq] at h
    | decimal p s =>
      rw [core_decimal p3, flattenN_same rfl] at p4
      subst p4
      simp [pyEq] at h
    | varchar n =>
      rw [core_varchar p3, flattenN_same rfl] at p4
      subst p4
      simp [pyEq] at h
    | char n =>
      rw [core_char p3, flattenN_same rfl] at p4
      subst p4
      simp [pyEq] at h
    | list e =>
      obtain ⟨e', -, rfl⟩ := core_list p3
      rw [flattenN_list] at p4
      subst p4
      simp [pyEq] at h
    | _ => simp [AvroColumn] at hc
  | struct fs =>
    obtain ⟨gs, rfl⟩ := core_struct q3
    obtain ⟨gs, e⟩ := flattenN_struct gs k
    rw [e] at q4
    subst q4
    cases a with
    | prim c =>
      rw [core_prim p3, coreOf_same] at p4
      subst p4
      cases c <;> simp [coreOf, primitive, pyEq] at h
    | decimal p s =>
      rw [core_decimal p3, flattenN_same rfl] at p4
      subst p4
      simp [pyEq] at h
    | varchar n =>
      rw [core_varchar p3, flattenN_same rfl] at p4
      subst p4
      simp [pyEq] at h
    | char n =>
      rw [core_char p3, flattenN_same rfl] at p4
      subst p4
      simp [pyEq] at h
    | list e =>
      obtain ⟨e', -, rfl⟩ := core_list p3
      rw [flattenN_list] at p4
      subst p4
      simp [pyEq] at h
    | _ => simp [AvroColumn] at hc
  | list e2 =>
    obtain ⟨e2', q5, rfl⟩ := core_list q3
    rw [flattenN_list] at q4
    subst q4
    cases a with
    | prim c =>
      rw [core_prim p3, coreOf_same] at p4
      subst p4
      cases c <;> simp [coreOf, primitive, pyEq] at h
    | decimal p s =>
      rw [core_decimal p3, flattenN_same rfl] at p4
      subst p4
      simp [pyEq] at h
    | varchar n =>
      rw [core_varchar p3, flattenN_same rfl] at p4
      subst p4
      simp [pyEq] at h
    | char n =>
      rw [core_char p3, flattenN_same rfl] at p4
      subst p4
      simp [pyEq] at h
    | list e =>
      obtain ⟨e', p5, rfl⟩ := core_list p3
      rw [flattenN_list] at p4
      subst p4
      simp only [AvroColumn] at hc
      subst hc
      rw [Hive.parse] at p5
      cases p5
      simp only [pyEq, Bool.and_eq_true] at h
      have he : e2 = .prim .void := by
        refine Classical.byContradiction fun he => ?_
        obtain ⟨ts, a, rfl, -⟩ := parse_isUnion he q5
        obtain ⟨us, hu⟩ := flattenN_union ts a k
        rw [hu] at h
        have : flattenN j (finish (.null {})) = .null {} := flattenN_same rfl j
        rw [this] at h
        simp [pyEq] at h
      subst he
      refine ⟨rfl, fun _ => ?_⟩
      have := h.1
      simp only [attrsEq, Bool.and_eq_true] at this
      exact moved_eq _ _ this.2
    | _ => simp [AvroColumn] at hc

/-! ### What is made of unions -/

theorem image_real {p : HType × Nat} {m : RType} (h : Image p m) : RealType m := by
  obtain ⟨-, -, m0, h1, rfl⟩ := h
  have h0 : RealType m0 := realType_sub (parse_real _ _ _ given_empty h1) (.member (t := m0) (by simp) .refl)
  have : ∀ k, RealType (flattenN k m0) := by
    intro k
    induction k with
    | zero => exact h0
    | succ k ih => exact flatten_real _ ih
  exact this _

theorem image_alike {p q : HType × Nat} {m m' : RType} (hp : Image p m) (hq : Image q m') (h : pyEq m m' = true) :
    SameOption p q := by
  rintro (hc | hc)
  · exact image_inj hp hq hc h
  · obtain ⟨h1, h2⟩ := image_inj hq hp hc (RType.pyEq_symm _ _ (image_real hp) (image_real hq) h)
    exact ⟨h1.symm, fun e => (h2 (h1 ▸ e)).symm⟩

theorem core_not {h : HType} {m : RType} (h1 : h ≠ .prim .void) (h2 : ∀ hs, h ≠ .union hs) (hc : Core h m) :
    m.isUnion = false ∧ m.isNull = false := by
  cases h with
  | prim c => rw [core_prim hc]; cases c <;> first | (exact absurd rfl h1) | exact ⟨rfl, rfl⟩ | (rw [Core, Hive.parse] at hc; cases hc)
  | decimal => rw [core_decimal hc]; exact ⟨rfl, rfl⟩
  | varchar => rw [core_varchar hc]; exact ⟨rfl, rfl⟩
  | char => rw [core_char hc]; exact ⟨rfl, rfl⟩
  | map => obtain ⟨_, _, -, rfl⟩ := core_map hc; exact ⟨rfl, rfl⟩
  | list => obtain ⟨_, -, rfl⟩ := core_list hc; exact ⟨rfl, rfl⟩
  | union hs => exact absurd rfl (h2 hs)
  | struct => obtain ⟨_, rfl⟩ := core_struct hc; exact ⟨rfl, rfl⟩

theorem flatten_not {m : RType} (h : m.isUnion = false ∧ m.isNull = false) :
    (flatten m).isUnion = false ∧ (flatten m).isNull = false := by
  cases m <;> simp [isUnion, isNull] at h <;> simp [flatten, isUnion, isNull]

theorem image_not {p : HType × Nat} {m : RType} (h : Image p m) : m.isUnion = false ∧ m.isNull = false := by
  obtain ⟨h1, h2, m0, h3, rfl⟩ := h
  have h0 := core_not h1 h2 h3
  have : ∀ k, (flattenN k m0).isUnion = false ∧ (flattenN k m0).isNull = false := by
    intro k
    induction k with
    | zero => exact h0
    | succ k ih => exact flatten_not ih
  exact this _

/-- One more union around an option. -/
def shift (p : HType × Nat) : HType × Nat := (p.1, p.2 + 1)

theorem image_shift {p : HType × Nat} {m : RType} (h : Image p m) : Image (shift p) (flatten m) := by
  obtain ⟨h1, h2, m0, h3, rfl⟩ := h
  exact ⟨h1, h2, m0, h3, rfl⟩

theorem alike_shift {p q : HType × Nat} (h : SameOption p q) : SameOption (shift p) (shift q) := by
  intro hc
  obtain ⟨h1, h2⟩ := h hc
  exact ⟨h1, fun e => by rw [shift, shift, h2 e]⟩

mutual
theorem options_shift (d : Nat) : ∀ h : HType, options (d + 1) h = (options d h).map shift
  | .union hs => by rw [options, options]; exact optionsAll_shift (d + 1) hs
  | .prim c => by rw [options, options]; split <;> rfl
  | .decimal .. => rfl
  | .varchar _ => rfl
  | .char _ => rfl
  | .map .. => rfl
  | .list _ => rfl
  | .struct _ => rfl
theorem optionsAll_shift (d : Nat) : ∀ hs : List HType, optionsAll (d + 1) hs = (optionsAll d hs).map shift
  | [] => rfl
  | h :: hs => by rw [optionsAll, optionsAll, options_shift d h, optionsAll_shift d hs, List.map_append]
end

/-- The members are null and what is made of the options. -/
structure Holds (ms : List RType) (ps : List (HType × Nat)) : Prop where
  only : ∀ m ∈ ms, m = .null {} ∨ ∃ p ∈ ps, Image p m
  all : ∀ p ∈ ps, ∃ m ∈ ms, ∃ q, Image q m ∧ SameOption p q

theorem Holds.not_union {ms : List RType} {ps : List (HType × Nat)} (h : Holds ms ps) : ∀ m ∈ ms, m.isUnion = false := by
  intro m hm
  rcases h.only m hm with rfl | ⟨p, -, h⟩
  · rfl
  · exact (image_not h).1

theorem Holds.flatten {t : RType} {ps : List (HType × Nat)} (h : Holds (alternatives t) ps) :
    Holds (alternatives (flatten t)) (ps.map shift) := by
  have only : ∀ m ∈ alternatives (Hive.flatten t), m = .null {} ∨ ∃ p ∈ ps.map shift, Image p m := by
    have key : ∀ m ∈ alternatives (Hive.flatten t), ∃ m0 ∈ alternatives t, m = Hive.flatten m0 := by
      cases t with
      | union ts a =>
        intro m hm
        rw [Hive.flatten] at hm
        simp only [alternatives] at hm h ⊢
        rw [flattenAll_eq] at hm
        rcases mem_foldl_absorb hm with h1 | ⟨h1, -⟩ | ⟨f, hf, hu, -⟩
        · simp at h1
        · obtain ⟨m0, h2, rfl⟩ := List.mem_map.mp h1
          exact ⟨m0, h2, rfl⟩
        · obtain ⟨m0, h2, rfl⟩ := List.mem_map.mp hf
          have := h.not_union m0 h2
          exfalso
          revert hu
          cases m0 <;> simp [isUnion] at this <;> simp [Hive.flatten, isUnion]
      | _ => intro m hm; exact ⟨_, List.mem_singleton.mpr rfl, by simpa [Hive.flatten, alternatives] using hm⟩
    intro m hm
    obtain ⟨m0, h1, rfl⟩ := key m hm
    rcases h.only m0 h1 with rfl | ⟨p, hp, h2⟩
    · exact .inl rfl
    · exact .inr ⟨shift p, List.mem_map.mpr ⟨p, hp, rfl⟩, image_shift h2⟩
  refine ⟨only, fun p hp => ?_⟩
  obtain ⟨p, hp', rfl⟩ := List.mem_map.mp hp
  obtain ⟨m, hm, q, h1, h2⟩ := h.all p hp'
  obtain ⟨m', h3, h4⟩ := flatten_alternative hm (image_not h1).1
  rcases h4 with rfl | h4
  · exact ⟨_, h3, shift q, image_shift h1, alike_shift h2⟩
  · rcases only m' h3 with rfl | ⟨r, -, h5⟩
    · have := (flatten_not (image_not h1)).2
      have h6 := isNull_of_pyEq h4
      rw [this] at h6
      cases h6
    · exact ⟨m', h3, r, h5, (alike_shift h2).trans (image_alike h5 (image_shift h1) h4).symm⟩

/-- Collecting the members of a union. -/
theorem holds_fold {fs : List RType} {ps : List (HType × Nat)} (h1 : ∀ f ∈ fs, ∃ qs, (∀ q ∈ qs, q ∈ ps) ∧ Holds (alternatives f) qs)
    (h2 : ∀ p ∈ ps, ∃ f ∈ fs, ∃ qs, p ∈ qs ∧ Holds (alternatives f) qs) : Holds (fs.foldl absorb []) ps := by
  have only : ∀ m ∈ fs.foldl absorb [], m = .null {} ∨ ∃ p ∈ ps, Image p m := by
    intro m hm
    have : ∃ f ∈ fs, m ∈ alternatives f := by
      rcases mem_foldl_absorb hm with h | ⟨h, h'⟩ | ⟨f, hf, hu, h⟩
      · simp at h
      · refine ⟨m, h, ?_⟩
        cases m <;> simp [isUnion] at h' <;> simp [alternatives]
      · refine ⟨f, hf, ?_⟩
        cases f <;> simp [isUnion] at hu
        exact h
    obtain ⟨f, hf, hm⟩ := this
    obtain ⟨qs, h3, h4⟩ := h1 f hf
    rcases h4.only m hm with h | ⟨p, hp, h⟩
    · exact .inl h
    · exact .inr ⟨p, h3 p hp, h⟩
  refine ⟨only, fun p hp => ?_⟩
  obtain ⟨f, hf, qs, hq, h3⟩ := h2 p hp
  obtain ⟨m, hm, q, h4, h5⟩ := h3.all p hq
  have : f.isUnion = false ∧ m = f ∨ f.isUnion = true ∧ m ∈ children f := by
    cases f <;> first | exact .inr ⟨rfl, hm⟩ | exact .inl ⟨rfl, List.mem_singleton.mp hm⟩
  rcases represented (acc := []) hf this with h | ⟨m', h, h'⟩
  · exact ⟨m, h, q, h4, h5⟩
  · rcases only m' h with rfl | ⟨r, -, h6⟩
    · have := isNull_of_pyEq h'
      rw [(image_not h4).2] at this
      cases this
    · exact ⟨m', h, r, h6, h5.trans (image_alike h6 h4 h').symm⟩

theorem optionsAll_mem {d : Nat} : ∀ {hs : List HType} {p : HType × Nat}, p ∈ optionsAll d hs ↔ ∃ h ∈ hs, p ∈ options d h
  | [], p => by simp [optionsAll]
  | h :: hs, p => by rw [optionsAll, List.mem_append, optionsAll_mem]; simp

theorem leaf_holds {h : HType} {t : RType} (hv : h ≠ .prim .void) (hu : ∀ hs, h ≠ .union hs) (hp : parse {} h = .ok t) :
    Holds (alternatives t) [(h, 0)] := by
  obtain ⟨m, h1, rfl⟩ := core_of (.inl rfl) hv hu hp
  have hi : Image (h, 0) m := ⟨hv, hu, m, h1, rfl⟩
  refine ⟨fun u hu => ?_, fun p hp => ⟨m, by simp [alternatives], (h, 0), hi, ?_⟩⟩
  · simp only [alternatives, List.mem_cons, List.not_mem_nil, or_false] at hu
    rcases hu with rfl | rfl
    · exact .inl rfl
    · exact .inr ⟨_, List.mem_singleton.mpr rfl, hi⟩
  · rw [List.mem_singleton.mp hp]
    exact .refl _

/-- The members of a union, flattened. -/
theorem union_holds {hs : List HType} {ts : List RType}
    (h : (∀ t ∈ ts, ∃ h ∈ hs, Holds (alternatives t) (options 0 h)) ∧ (∀ h ∈ hs, ∃ t ∈ ts, Holds (alternatives t) (options 0 h))) :
    Holds ((flattenAll (.null {} :: ts)).foldl absorb []) (optionsAll 1 hs) := by
  rw [flattenAll_eq]
  refine holds_fold ?_ ?_
  · intro f hf
    obtain ⟨t, ht, rfl⟩ := List.mem_map.mp hf
    rcases List.mem_cons.mp ht with rfl | ht
    · exact ⟨[], by simp, fun m hm => .inl (List.mem_singleton.mp hm), by simp⟩
    · obtain ⟨h0, h1, h2⟩ := h.1 t ht
      refine ⟨_, fun q hq => ?_, h2.flatten⟩
      rw [← options_shift] at hq
      exact optionsAll_mem.mpr ⟨h0, h1, hq⟩
  · intro p hp
    obtain ⟨h0, h1, h2⟩ := optionsAll_mem.mp hp
    obtain ⟨t, ht, h3⟩ := h.2 h0 h1
    refine ⟨Hive.flatten t, List.mem_map.mpr ⟨t, List.mem_cons_of_mem _ ht, rfl⟩, _, ?_, h3.flatten⟩
    rw [← options_shift]
    exact h2

mutual
theorem parse_holds : ∀ (h : HType) (t : RType), parse {} h = .ok t → Holds (alternatives t) (options 0 h)
  | .union hs, t, hp => by
    rw [Hive.parse] at hp
    obtain ⟨ts, h1, hp⟩ := Relational.bind_ok hp
    cases hp
    exact union_holds (parseAll_holds hs ts h1)
  | .prim c, t, hp => by
    by_cases hv : c = .void
    · subst hv
      rw [Hive.parse] at hp
      cases hp
      refine ⟨fun m hm => .inl (List.mem_singleton.mp hm), fun p hp => ?_⟩
      simp [options] at hp
    · rw [options, if_neg hv]
      exact leaf_holds (by simpa using hv) (by simp) hp
  | .decimal .., t, hp => leaf_holds (by simp) (by simp) hp
  | .varchar _, t, hp => leaf_holds (by simp) (by simp) hp
  | .char _, t, hp => leaf_holds (by simp) (by simp) hp
  | .map .., t, hp => leaf_holds (by simp) (by simp) hp
  | .list _, t, hp => leaf_holds (by simp) (by simp) hp
  | .struct _, t, hp => leaf_holds (by simp) (by simp) hp
theorem parseAll_holds : ∀ (hs : List HType) (ts : List RType), parseAll hs = .ok ts →
    (∀ t ∈ ts, ∃ h ∈ hs, Holds (alternatives t) (options 0 h)) ∧ (∀ h ∈ hs, ∃ t ∈ ts, Holds (alternatives t) (options 0 h))
  | [], ts, hp => by
    rw [Hive.parseAll] at hp
    cases hp
    simp
  | h :: hs, ts, hp => by
    rw [Hive.parseAll] at hp
    obtain ⟨u, h1, hp⟩ := Relational.bind_ok hp
    obtain ⟨us, h2, hp⟩ := Relational.bind_ok hp
    cases hp
    have a := parse_holds h u h1
    have b := parseAll_holds hs us h2
    simp only [List.mem_cons, exists_eq_or_imp, forall_eq_or_imp]
    exact ⟨⟨.inl a, fun t ht => .inr (b.1 t ht)⟩, ⟨.inl a, fun t ht => .inr (b.2 t ht)⟩⟩
end

/-! ### What is written -/

/-- What is written for an option. -/
theorem image_written {p : HType × Nat} {m : RType} (hi : Image p m) (live : Registry) {l : Nat} (n : Nat) (hn : weight l m ≤ n) :
    (AvroColumn p.1 → ∃ v, convertF live n m = .ok v ∧ ValidSchema v ∧ (∀ us, v ≠ .list us) ∧
      kind v = some (.str (avroKind p.1))) ∧
    (∀ v, convertF live n m = .ok v → ValidSchema v → AvroColumn p.1) := by
  obtain ⟨h, k⟩ := p
  obtain ⟨hv, hu, m0, hc, rfl⟩ := hi
  simp only at hv hu hc hn ⊢
  have := weight_pos l (flattenN k m0)
  obtain ⟨n, rfl⟩ : ∃ i, n = i + 1 := ⟨n - 1, by omega⟩
  cases h with
  | prim p =>
    rw [core_prim hc, coreOf_same]
    cases p
    case void => exact absurd rfl hv
    case other => rw [Core, Hive.parse] at hc; cases hc
    all_goals first
      | exact written _ rfl (by simp [AvroColumn]) (by decide) rfl
      | exact written_logical _ _ rfl (by simp [AvroColumn]) (by decide) rfl
      | exact refused (by simp [AvroColumn]) (fun _ h => nomatch h)
  | decimal p s =>
    rw [core_decimal hc, flattenN_same rfl]
    exact written_logical _ _ rfl (by simp [AvroColumn]) (by decide) rfl
  | varchar i =>
    rw [core_varchar hc, flattenN_same rfl]
    by_cases hk : i ≤ 9223372036854775807
    · exact written "string" (by rw [write_string, if_pos hk]) hk (by decide) rfl
    · refine refused hk (fun v h => ?_)
      rw [write_string, if_neg hk] at h
      cases h
  | char i =>
    rw [core_char hc, flattenN_same rfl]
    by_cases hk : i ≤ 9223372036854775807
    · exact written "string" (by rw [write_string, if_pos hk]) hk (by decide) rfl
    · refine refused hk (fun v h => ?_)
      rw [write_string, if_neg hk] at h
      cases h
  | union ts => exact absurd rfl (hu ts)
  | map a b =>
    obtain ⟨k', v', h1, rfl⟩ := core_map hc
    rw [flattenN_map]
    refine refused (by simp [AvroColumn]) (fun v h => ?_)
    have hk : isString (flattenN k k') = false := by
      have hs := parse_h (P := fun _ => True) (N := fun _ => True) trivial {} a k' given_empty trivial (fieldNames_true a) h1
      rcases hs.2.1 with rfl | ⟨ts, a, rfl⟩
      · rw [flattenN_same rfl]; rfl
      · obtain ⟨us, e⟩ := flattenN_union ts a k
        rw [e]; rfl
    rw [convertF] at h
    obtain ⟨s, -, h⟩ := Relational.bind_ok h
    have hl : (moved k).logical = .none := by cases k <;> rfl
    simp only [RType.attrs, hl, hk, Bool.false_eq_true, if_false] at h
    cases h
  | list e =>
    obtain ⟨e', h1, rfl⟩ := core_list hc
    rw [flattenN_list] at hn ⊢
    have hl : (moved k).logical = .none := by cases k <;> rfl
    have hd : describe (moved k) = .ok [] := by cases k <;> rfl
    have hconv : convertF live (n + 1) (.list (flattenN k e') .none (.bool true) (moved k)) =
        (convertF live n (flattenN k e')).map (fun v => .dict [("type", .str "array"), ("items", v)]) := by
      rw [convertF]
      simp only [RType.attrs, hl, hd, bind, Except.bind]
      cases convertF live n (flattenN k e') <;> rfl
    by_cases he : e = .prim .void
    · subst he
      rw [Hive.parse] at h1
      cases h1
      obtain ⟨n, rfl⟩ : ∃ k, n = k + 1 := by
        refine ⟨n - 1, ?_⟩
        have := weight_pos l (flattenN k (finish (.null {})))
        simp only [weight] at hn
        omega
      have e : flattenN k (finish (.null {})) = .null {} := flattenN_same rfl k
      rw [e] at hconv ⊢
      refine ⟨fun _ => ⟨_, hconv, .array rfl rfl (.name (by decide)), fun _ h => (nomatch h), by decide +kernel⟩,
        fun _ _ _ => by simp [AvroColumn]⟩
    · refine refused (by simpa [AvroColumn] using he) (fun v h hval => ?_)
      obtain ⟨ts, a, rfl, hl⟩ := parse_isUnion he h1
      obtain ⟨us, hus⟩ := flattenN_union ts a k
      rw [hconv, hus] at h
      cases hw : convertF live n (.union us a) with
      | error x => rw [hw] at h; cases h
      | ok w =>
        rw [hw] at h
        cases h
        have hno := union_written hl hw
        cases hval with
        | primitive h1 h2 => cases h1; revert h2; decide
        | array h1 h2 h3 => cases h2; exact hno h3
        | map h1 => simp [Dict.get?] at h1
        | record h1 => simp [Dict.get?] at h1
        | enum h1 => simp [Dict.get?] at h1
        | fixed h1 => simp [Dict.get?] at h1
  | struct fs =>
    obtain ⟨gs, rfl⟩ := core_struct hc
    obtain ⟨gs', e⟩ := flattenN_struct gs k
    rw [e]
    refine refused (by simp [AvroColumn]) (fun v h => ?_)
    obtain ⟨vs, rfl⟩ := bare_struct h
    exact not_valid_nameless rfl rfl

/-! ### Columns -/

theorem same_of_nodup {α β : Type} {f : α → β} : ∀ {l : List α}, (l.map f).Nodup → ∀ {a b}, a ∈ l → b ∈ l → f a = f b → a = b
  | [], _, _, _, h, _, _ => by simp at h
  | x :: xs, h, a, b, ha, hb, e => by
    simp only [List.map_cons, List.nodup_cons, List.mem_map, not_exists, not_and] at h
    rcases List.mem_cons.mp ha with ha' | ha' <;> rcases List.mem_cons.mp hb with hb' | hb'
    · rw [ha', hb']
    · exact absurd (e.symm.trans (by rw [ha'])) (h.1 b hb')
    · exact absurd (e.trans (by rw [hb'])) (h.1 a ha')
    · exact same_of_nodup h.2 ha' hb' e

/-- The value of a result. -/
def valueOf (r : Except PyErr PyVal) : PyVal :=
  match r with
  | .ok v => v
  | .error _ => .none

theorem convertAll_iff {f : RType → Except PyErr PyVal} : ∀ {ms : List RType} {vs : List PyVal},
    convertAll f ms = .ok vs ↔ (∀ m ∈ ms, ∃ v, f m = .ok v) ∧ vs = ms.map (fun m => valueOf (f m))
  | [], vs => by
    rw [convertAll]
    constructor
    · intro h; cases h; simp
    · rintro ⟨-, rfl⟩; rfl
  | m :: ms, vs => by
    rw [convertAll]
    constructor
    · intro h
      obtain ⟨v, h1, h⟩ := Relational.bind_ok h
      obtain ⟨ws, h2, h⟩ := Relational.bind_ok h
      cases h
      obtain ⟨h3, h4⟩ := convertAll_iff.mp h2
      refine ⟨?_, by rw [List.map_cons, ← h4, h1]; rfl⟩
      simp only [List.mem_cons, forall_eq_or_imp]
      exact ⟨⟨v, h1⟩, h3⟩
    · rintro ⟨h1, rfl⟩
      simp only [List.mem_cons, forall_eq_or_imp] at h1
      obtain ⟨⟨v, h1⟩, h2⟩ := h1
      rw [h1, convertAll_iff.mpr ⟨h2, rfl⟩, List.map_cons, h1]
      rfl

theorem foldl_absorb_head {t : RType} : ∀ (fs acc : List RType), ∃ rest, fs.foldl absorb (t :: acc) = t :: rest
  | [], acc => ⟨acc, rfl⟩
  | f :: fs, acc => by
    have : ∃ acc', absorb (t :: acc) f = t :: acc' := by
      have key : ∀ u : RType, ∃ acc', (if (t :: acc).any (fun v => pyEq v u) then t :: acc else (t :: acc) ++ [u]) = t :: acc' := by
        intro u
        split
        · exact ⟨_, rfl⟩
        · exact ⟨_, rfl⟩
      cases f with
      | union ts a => exact ⟨_, rfl⟩
      | _ => exact key _
    obtain ⟨acc', h⟩ := this
    rw [List.foldl_cons, h]
    exact foldl_absorb_head fs acc'

/-- What is made of a column other than void. -/
theorem parse_column {nm : String} {c : Option String} {h : HType} {t : RType} (hv : h ≠ .prim .void)
    (hp : Hive.parse (columnAttrs nm c) h = .ok t) :
    ∃ ms, t = .union (.null {} :: ms) { doc := (columnAttrs nm c).doc, extra := [("default", .none), ("name", .str nm)] } ∧
      Holds (.null {} :: ms) (options 0 h) ∧ (.null {} :: ms).Pairwise (fun a b => pyEq a b = false) := by
  by_cases hu : ∃ hs, h = .union hs
  · obtain ⟨hs, rfl⟩ := hu
    rw [Hive.parse] at hp
    obtain ⟨ts, h1, hp⟩ := Relational.bind_ok hp
    cases hp
    obtain ⟨rest, h2⟩ := foldl_absorb_head (t := .null {}) (flattenAll ts) []
    have h3 : (flattenAll (.null {} :: ts)).foldl absorb [] = .null {} :: rest := h2
    refine ⟨rest, ?_, ?_, ?_⟩
    · rw [flatten, h3]
      rfl
    · rw [← h3]
      exact union_holds (parseAll_holds hs ts h1)
    · rw [← h3]
      exact foldl_absorb_distinct .nil (fun f hf => flattenAll_flat _ f hf f .refl)
  · have hu' : ∀ hs, h ≠ .union hs := fun hs e => hu ⟨hs, e⟩
    obtain ⟨m, h1, rfl⟩ := core_of (.inr ⟨nm, c, rfl⟩) hv hu' hp
    have h2 : Holds [.null {}, m] (options 0 h) := parse_holds h _ h1
    refine ⟨[m], rfl, h2, ?_⟩
    simp only [List.pairwise_cons, List.mem_singleton, forall_eq, List.not_mem_nil, false_implies, implies_true,
      List.Pairwise.nil, and_true]
    have := (core_not hv hu' h1).2
    cases m <;> simp [isNull] at this <;> rfl

/-- The field for a column. -/
theorem union_column {live : Registry} {n : Nat} {ms : List RType} {dv : PyVal} {nm : String} (hn : nm ≠ "") :
    convertF live (n + 1) (.union (.null {} :: ms) { doc := dv, extra := [("default", .none), ("name", .str nm)] }) =
      (convertAll (convertF live n) (.null {} :: ms)).map (fun vs => .dict (Avro.docOf { doc := dv } ++
        [("name", .str nm), ("default", .none), ("type", .list vs)])) := by
  have hd : describe { doc := dv, extra := [("default", .none), ("name", .str nm)] } =
      .ok (Avro.docOf { doc := dv } ++ [("name", .str nm), ("default", .none)]) := by
    simp [describe, aliasesOf, PyVal.truthy, nameOf, Dict.get?, copied, Avro.docOf, hn, bind, Except.bind, pure, Except.pure]
  rw [convertF]
  simp only [RType.attrs, hd, bind, Except.bind]
  cases convertAll (convertF live n) (.null {} :: ms) with
  | error e => rfl
  | ok vs =>
    simp only [Except.map, pure, Except.pure]
    unfold Avro.docOf
    split <;> rfl

theorem column_get (dv : PyVal) (nm : String) (vs : List PyVal) (k : String) (hk : k ≠ "doc") :
    Dict.get? (Avro.docOf { doc := dv } ++ [("name", .str nm), ("default", .none), ("type", .list vs)]) k =
      Dict.get? [("name", .str nm), ("default", .none), ("type", .list vs)] k := by
  unfold Avro.docOf
  split
  · simp [Dict.get?, Ne.symm hk]
  · rfl

theorem column_valid {dv : PyVal} {nm : String} {vs : List PyVal} (hn : IsName nm) :
    ValidField (.dict (Avro.docOf { doc := dv } ++ [("name", .str nm), ("default", .none), ("type", .list (.str "null" :: vs))])) ↔
      ValidSchema (.list (.str "null" :: vs)) := by
  constructor
  · intro h
    cases h with
    | mk h1 h2 h3 h4 h5 =>
      rw [column_get _ _ _ _ (by decide)] at h3
      have : some (PyVal.list (.str "null" :: vs)) = some _ := h3
      cases this
      exact h4
  · intro h
    refine .mk (n := nm) (v := .list (.str "null" :: vs)) ?_ hn ?_ h (fun _ => rfl)
    · rw [column_get _ _ _ _ (by decide)]; rfl
    · rw [column_get _ _ _ _ (by decide)]; rfl

/-- What is made of an option is determined by what distinguishes options. -/
theorem image_unique {p q : HType × Nat} {m m' : RType} (hp : Image p m) (hq : Image q m') (hc : AvroColumn p.1)
    (h1 : p.1 = q.1) (h2 : avroKind p.1 = "array" → p.2 = q.2) : m = m' := by
  obtain ⟨a, j⟩ := p
  obtain ⟨b, k⟩ := q
  obtain ⟨p1, p2, m0, p3, rfl⟩ := hp
  obtain ⟨q1, q2, m1, q3, rfl⟩ := hq
  simp only at h1 h2 hc p1 p2 p3 q1 q2 q3 ⊢
  subst h1
  have : m1 = m0 := by
    have := p3.symm.trans q3
    cases this
    rfl
  subst this
  cases a with
  | prim c => rw [core_prim p3, coreOf_same, coreOf_same]
  | decimal => rw [core_decimal p3, flattenN_same rfl, flattenN_same rfl]
  | varchar => rw [core_varchar p3, flattenN_same rfl, flattenN_same rfl]
  | char => rw [core_char p3, flattenN_same rfl, flattenN_same rfl]
  | list => rw [h2 rfl]
  | _ => simp [AvroColumn] at hc

theorem kind_not_null {h : HType} (hc : AvroColumn h) (hv : h ≠ .prim .void) : avroKind h ≠ "null" := by
  cases h with
  | prim c => cases c <;> simp [avroKind] at hv ⊢
  | _ => simp [avroKind]

/-- The members of a column are written as a union exactly for the options of `AvroOptions`. -/
theorem members_written {live : Registry} {l n : Nat} {h : HType} {ms : List RType} (hh : Holds (.null {} :: ms) (options 0 h))
    (hd : (.null {} :: ms).Pairwise (fun a b => pyEq a b = false)) (hw : ∀ m ∈ ms, weight l m ≤ n) (hn : 0 < n) :
    (AvroOptions h → ∃ vs, convertAll (convertF live n) (.null {} :: ms) = .ok (.str "null" :: vs) ∧
      ValidSchema (.list (.str "null" :: vs))) ∧
    (∀ vs, convertAll (convertF live n) (.null {} :: ms) = .ok vs → ValidSchema (.list vs) → AvroOptions h) := by
  obtain ⟨n, rfl⟩ : ∃ k, n = k + 1 := ⟨n - 1, by omega⟩
  have h0 : convertF live (n + 1) (.null {}) = .ok (.str "null") := rfl
  have him : ∀ m ∈ ms, ∃ p ∈ options 0 h, Image p m := by
    intro m hm
    rcases hh.only m (List.mem_cons_of_mem _ hm) with rfl | h
    · have := (List.pairwise_cons.mp hd).1 _ hm
      cases this
    · exact h
  constructor
  · intro ha
    have key : ∀ m ∈ ms, ∃ v p, p ∈ options 0 h ∧ Image p m ∧ convertF live (n + 1) m = .ok v ∧ ValidSchema v ∧
        (∀ us, v ≠ .list us) ∧ kind v = some (.str (avroKind p.1)) := by
      intro m hm
      obtain ⟨p, hp, h1⟩ := him m hm
      obtain ⟨v, h2⟩ := (image_written h1 live (n + 1) (hw m hm)).1 (ha p hp).1
      exact ⟨v, p, hp, h1, h2⟩
    refine ⟨ms.map (fun m => valueOf (convertF live (n + 1) m)), convertAll_iff.mpr ⟨?_, by rw [List.map_cons]; rfl⟩, .union ?_ ?_ ?_⟩
    · intro m hm
      rcases List.mem_cons.mp hm with rfl | hm
      · exact ⟨_, h0⟩
      · obtain ⟨v, -, -, -, e, -⟩ := key m hm
        exact ⟨v, e⟩
    · intro v hv
      rcases List.mem_cons.mp hv with rfl | hv
      · exact .name (by decide)
      · obtain ⟨m, hm, rfl⟩ := List.mem_map.mp hv
        obtain ⟨v, -, -, -, e, h1, -⟩ := key m hm
        rw [e]
        exact h1
    · intro v hv
      rcases List.mem_cons.mp hv with rfl | hv
      · simp
      · obtain ⟨m, hm, rfl⟩ := List.mem_map.mp hv
        obtain ⟨v, -, -, -, e, -, h1, -⟩ := key m hm
        rw [e]
        exact h1
    · rw [List.map_cons, List.nodup_cons]
      constructor
      · intro hm
        obtain ⟨v, hv, h1⟩ := List.mem_map.mp hm
        obtain ⟨m, hm, rfl⟩ := List.mem_map.mp hv
        obtain ⟨v, p, hp, hi, e, -, -, h2⟩ := key m hm
        rw [e] at h1
        rw [show valueOf (.ok v) = v from rfl, h2] at h1
        have : avroKind p.1 = "null" := by simpa [kind] using h1
        exact kind_not_null (ha p hp).1 hi.1 this
      · rw [List.map_map]
        refine List.pairwise_map.mpr ((List.pairwise_cons.mp hd).2.imp_of_mem ?_)
        intro m m' hm hm' hne e
        obtain ⟨v, p, hp, hi, e1, -, -, h2⟩ := key m hm
        obtain ⟨v', p', hp', hi', e1', -, -, h2'⟩ := key m' hm'
        simp only [Function.comp_apply, e1, e1'] at e
        rw [show valueOf (.ok v) = v from rfl, show valueOf (.ok v') = v' from rfl, h2, h2'] at e
        have e2 : avroKind p.1 = avroKind p'.1 := by simpa using e
        obtain ⟨h3, h4⟩ := (ha p hp).2 p' hp' e2
        have := image_unique hi hi' (ha p hp).1 h3 h4
        subst this
        rw [RType.pyEq_refl m (image_real hi)] at hne
        cases hne
  · intro vs h1 h2
    obtain ⟨h3, rfl⟩ := convertAll_iff.mp h1
    cases h2 with
    | union k1 k2 k3 =>
      have val : ∀ m ∈ ms, ∀ p, Image p m → AvroColumn p.1 ∧ kind (valueOf (convertF live (n + 1) m)) = some (.str (avroKind p.1)) := by
        intro m hm p hi
        obtain ⟨v, e⟩ := h3 m (List.mem_cons_of_mem _ hm)
        have hv := k1 (valueOf (convertF live (n + 1) m)) (List.mem_map.mpr ⟨m, List.mem_cons_of_mem _ hm, rfl⟩)
        rw [e] at hv ⊢
        obtain ⟨w1, w2⟩ := image_written hi live (n + 1) (hw m hm)
        have hc := w2 v e hv
        obtain ⟨w, e', -, -, hk⟩ := w1 hc
        rw [e] at e'
        cases e'
        exact ⟨hc, hk⟩
      have rep : ∀ p ∈ options 0 h, ∃ m ∈ ms, ∃ q, Image q m ∧ SameOption p q ∧ AvroColumn q.1 ∧ p.1 = q.1 := by
        intro p hp
        obtain ⟨m, hm, q, hi, ha⟩ := hh.all p hp
        rcases List.mem_cons.mp hm with rfl | hm
        · have := (image_not hi).2
          cases this
        · obtain ⟨hc, -⟩ := val m hm q hi
          exact ⟨m, hm, q, hi, ha, hc, (ha (.inr hc)).1⟩
      intro p hp
      obtain ⟨m, hm, q, hi, ha, hc, e⟩ := rep p hp
      refine ⟨e ▸ hc, fun p' hp' ek => ?_⟩
      obtain ⟨m', hm', q', hi', ha', hc', e'⟩ := rep p' hp'
      have kk : kind (valueOf (convertF live (n + 1) m)) = kind (valueOf (convertF live (n + 1) m')) := by
        rw [(val m hm q hi).2, (val m' hm' q' hi').2, ← e, ← e', ek]
      rw [List.map_map] at k3
      have := same_of_nodup k3 (List.mem_cons_of_mem _ hm) (List.mem_cons_of_mem _ hm') kk
      subst this
      exact (ha.trans ((image_alike hi hi' (RType.pyEq_refl m (image_real hi))).trans ha'.symm)) (.inl (e ▸ hc))

/-- The name of what is written for a field. -/
def written? : PyVal → Option PyVal
  | .dict fd => Dict.get? fd "name"
  | _ => .none

/-- What is written for a column. -/
theorem column_written {nm : String} {c : Option String} {h : HType} {t : RType} {live : Registry} {l n : Nat}
    (hn : IsName nm) (hp : Hive.parse (columnAttrs nm c) h = .ok t) (hw : weight l t ≤ n) :
    (AvroOptions h → ∃ v, convertF live n t = .ok v ∧ ValidField (fieldSchema v) ∧ written? (fieldSchema v) = some (.str nm)) ∧
    (∀ v, convertF live n t = .ok v → ValidField (fieldSchema v) → AvroOptions h) := by
  have hne : nm ≠ "" := by
    rintro rfl
    obtain ⟨c, cs, h, -⟩ := hn
    cases h
  by_cases hv : h = .prim .void
  · subst hv
    refine ⟨fun _ => ?_, fun _ _ _ => by simp [AvroOptions, options]⟩
    rw [Hive.parse] at hp
    cases hp
    have : 0 < n := by have := weight_pos l (finish (.null (columnAttrs nm c))); omega
    obtain ⟨n, rfl⟩ : ∃ k, n = k + 1 := ⟨n - 1, by omega⟩
    have e : convertF live (n + 1) (finish (.null (columnAttrs nm c))) =
        .ok (.dict (Avro.docOf { doc := (columnAttrs nm c).doc } ++ [("name", .str nm), ("type", .str "null")])) := by
      have hd : describe (columnAttrs nm c) = .ok (Avro.docOf { doc := (columnAttrs nm c).doc } ++ [("name", .str nm)]) := by
        simp [columnAttrs, describe, aliasesOf, PyVal.truthy, nameOf, Dict.get?, copied, Avro.docOf, hne, bind, Except.bind, pure, Except.pure]
      show convertF live (n + 1) (.null (columnAttrs nm c)) = _
      rw [convertF]
      simp only [RType.attrs, hd, bind, Except.bind]
      simp only [show (columnAttrs nm c).logical = .none from rfl, leafSchema, pure, Except.pure]
      unfold Avro.docOf
      split <;> rfl
    have g : ∀ k, k ≠ "doc" → Dict.get? (Avro.docOf { doc := (columnAttrs nm c).doc } ++ [("name", .str nm), ("type", .str "null")]) k =
        Dict.get? [("name", .str nm), ("type", .str "null")] k := by
      intro k hk
      unfold Avro.docOf
      split
      · simp [Dict.get?, Ne.symm hk]
      · rfl
    refine ⟨_, e, .mk (n := nm) (v := .str "null") ?_ hn ?_ (.name (by decide)) (fun _ => rfl), ?_⟩
    · rw [g _ (by decide)]; rfl
    · rw [g _ (by decide)]; rfl
    · show Dict.get? _ "name" = _
      rw [g _ (by decide)]; rfl
  · obtain ⟨ms, rfl, hh, hd⟩ := parse_column hv hp
    have hw' : 1 + (1 + weightAll l ms) ≤ n := by
      simp only [weight, weightAll] at hw
      omega
    obtain ⟨n, rfl⟩ : ∃ k, n = k + 1 := ⟨n - 1, by omega⟩
    obtain ⟨h1, h2⟩ := members_written (live := live) (l := l) (n := n) hh hd
      (fun m hm => by have := weight_mem (l := l) m hm; omega) (by omega)
    constructor
    · intro ha
      obtain ⟨vs, e, h3⟩ := h1 ha
      refine ⟨_, by rw [union_column hne, e]; rfl, ?_, ?_⟩
      · exact (column_valid hn).mpr h3
      show Dict.get? _ "name" = _
      rw [column_get _ _ _ _ (by decide)]
      rfl
    · intro v e hval
      rw [union_column hne] at e
      cases hm : convertAll (convertF live n) (.null {} :: ms) with
      | error x => rw [hm] at e; cases e
      | ok vs =>
        rw [hm] at e
        cases e
        refine h2 vs hm ?_
        obtain ⟨ws, rfl⟩ : ∃ ws, vs = .str "null" :: ws := by
          obtain ⟨k, rfl⟩ : ∃ k, n = k + 1 := ⟨n - 1, by omega⟩
          exact ⟨_, (convertAll_iff.mp hm).2⟩
        exact (column_valid hn).mp hval

theorem weightAll_mem {l : Nat} {ts : List RType} {t : RType} (h : t ∈ ts) : weight l t ≤ weightAll l ts :=
  weight_mem t h

/-- The fields of a table. -/
theorem columns_written {live : Registry} {l n : Nat} : ∀ {cs : List HColumn} {ts : List RType}, parseColumns cs = .ok ts →
    (∀ c ∈ cs, IsName c.name) → (∀ t ∈ ts, weight l t ≤ n) →
    ((∀ c ∈ cs, AvroOptions c.type) → ∃ vs, convertAll (convertF live n) ts = .ok vs ∧
      (∀ f ∈ vs.map fieldSchema, ValidField f) ∧ (vs.map fieldSchema).map written? = cs.map (fun c => some (.str c.name))) ∧
    (∀ vs, convertAll (convertF live n) ts = .ok vs → (∀ f ∈ vs.map fieldSchema, ValidField f) → ∀ c ∈ cs, AvroOptions c.type)
  | [], ts, h, _, _ => by
    rw [parseColumns] at h
    cases h
    exact ⟨fun _ => ⟨[], rfl, by simp, rfl⟩, by simp⟩
  | c :: cs, ts, h, hn, hw => by
    rw [parseColumns] at h
    obtain ⟨t, h1, h⟩ := Relational.bind_ok h
    obtain ⟨us, h2, h⟩ := Relational.bind_ok h
    cases h
    obtain ⟨a1, a2⟩ := column_written (live := live) (hn c (by simp)) h1 (hw t (by simp))
    obtain ⟨b1, b2⟩ := columns_written (live := live) h2 (fun d hd => hn d (List.mem_cons_of_mem _ hd))
      (fun d hd => hw d (List.mem_cons_of_mem _ hd))
    constructor
    · intro ha
      obtain ⟨v, e, h3, h4⟩ := a1 (ha c (by simp))
      obtain ⟨vs, e', h5, h6⟩ := b1 (fun d hd => ha d (List.mem_cons_of_mem _ hd))
      refine ⟨v :: vs, by simp only [convertAll, e, e', bind, Except.bind]; rfl, ?_, ?_⟩
      · simp only [List.map_cons, List.mem_cons, forall_eq_or_imp]
        exact ⟨h3, h5⟩
      · simp only [List.map_cons, h4, h6]
    · intro vs e hval d hd
      rw [convertAll] at e
      obtain ⟨v, e1, e⟩ := Relational.bind_ok e
      obtain ⟨ws, e2, e⟩ := Relational.bind_ok e
      cases e
      simp only [List.map_cons, List.mem_cons, forall_eq_or_imp] at hval
      rcases List.mem_cons.mp hd with rfl | hd
      · exact a2 v e1 hval.1
      · exact b2 ws e2 hval.2 d hd

end Recap.Hive
