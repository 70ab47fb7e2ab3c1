import Verif.ProtobufResolve

/-!
# Lemmas about the order of messages in Protobuf files
-/

set_option autoImplicit false

namespace Recap.Protobuf

open Recap.Protobuf.Spec Recap.Spec

/-! ## References that are left -/

/-- A type in `t` that is no reference has the alias `x`. -/
def Al (t : RType) (x : PyVal) : Prop := ∃ u, Sub u t ∧ (∀ r a, u ≠ .proxy r a) ∧ u.attrs.alias = x

mutual
/-- No reference resolves to a reference. -/
def Flat : RType → Prop
  | .list t _ _ _ => Flat t
  | .map k t _ => Flat k ∧ Flat t
  | .struct fs _ => FlatAll fs
  | .union ts _ => FlatAll ts
  | .proxy (some reg) a => Plus a.extra ∧ FlatReg reg
  | .proxy .none a => Plus a.extra
  | _ => True
def FlatAll : List RType → Prop
  | [] => True
  | t :: ts => Flat t ∧ FlatAll ts
def FlatReg : List (String × RType) → Prop
  | [] => True
  | (_, t) :: ts => ((∀ r a, t ≠ .proxy r a) ∧ Flat t) ∧ FlatReg ts
end

theorem flatReg_append {a b : List (String × RType)} : FlatReg (a ++ b) ↔ FlatReg a ∧ FlatReg b := by
  induction a with
  | nil => simp [FlatReg]
  | cons kt a ih =>
    obtain ⟨k, t⟩ := kt
    simp only [List.cons_append, FlatReg, ih, and_assoc]

theorem flatAll_append {a b : List RType} : FlatAll (a ++ b) ↔ FlatAll a ∧ FlatAll b := by
  induction a with
  | nil => simp [FlatAll]
  | cons kt a ih => simp only [List.cons_append, FlatAll, ih, and_assoc]

theorem flatReg_find {reg : Registry} {s : String} {t : RType} (hr : FlatReg reg)
    (h : Registry.find? reg s = some t) : (∀ r a, t ≠ .proxy r a) ∧ Flat t := by
  induction reg with
  | nil => simp [Registry.find?] at h
  | cons kt reg ih =>
    obtain ⟨k, u⟩ := kt
    simp only [FlatReg, Registry.find?] at *
    split at h
    · cases h; exact hr.1
    · exact ih hr.2 h

theorem flatAll_mem {ts : List RType} (h : FlatAll ts) : ∀ t ∈ ts, Flat t := by
  induction ts with
  | nil => simp
  | cons t ts ih =>
    simp only [FlatAll] at h
    intro u hu
    rcases List.mem_cons.mp hu with rfl | hu
    · exact h.1
    · exact ih h.2 u hu

mutual
theorem flat_deepcopy {reg : Registry} (hr : FlatReg reg) : ∀ t : RType, Flat t → Flat (t.deepcopy reg)
  | .list t _ _ _, h => by simp only [RType.deepcopy, Flat] at *; exact flat_deepcopy hr t h
  | .map k t _, h => by
    simp only [RType.deepcopy, Flat] at *
    exact ⟨flat_deepcopy hr k h.1, flat_deepcopy hr t h.2⟩
  | .struct fs _, h => by simp only [RType.deepcopy, Flat] at *; exact flat_deepcopyAll hr fs h
  | .union ts _, h => by simp only [RType.deepcopy, Flat] at *; exact flat_deepcopyAll hr ts h
  | .proxy .none _, h => by simp only [RType.deepcopy, Flat] at *; exact ⟨h, hr⟩
  | .proxy (some r) _, h => by simp only [RType.deepcopy, Flat] at *; exact h
  | .null _, _ => trivial
  | .bool _, _ => trivial
  | .int .., _ => trivial
  | .float .., _ => trivial
  | .string .., _ => trivial
  | .bytes .., _ => trivial
  | .enum .., _ => trivial
theorem flat_deepcopyAll {reg : Registry} (hr : FlatReg reg) : ∀ ts : List RType, FlatAll ts →
    FlatAll (RType.deepcopyList reg ts)
  | [], _ => trivial
  | t :: ts, h => by
    simp only [RType.deepcopyList, FlatAll] at *
    exact ⟨flat_deepcopy hr t h.1, flat_deepcopyAll hr ts h.2⟩
end

theorem flat_withAttrs {t : RType} {a : Attrs} (hp : ∀ r a, t ≠ .proxy r a) : Flat (t.withAttrs a) ↔ Flat t := by
  cases t <;> first | rfl | exact absurd rfl (hp _ _)

theorem withAttrs_other {t : RType} {a : Attrs} (hp : ∀ r a, t ≠ .proxy r a) : ∀ r b, t.withAttrs a ≠ .proxy r b := by
  cases t <;> first | (intro r b h; cases h; done) | exact absurd rfl (hp _ _)

theorem deepcopy_other {t : RType} {reg : Registry} (hp : ∀ r a, t ≠ .proxy r a) :
    ∀ r b, t.deepcopy reg ≠ .proxy r b := by
  cases t <;> first | (intro r b h; simp only [RType.deepcopy] at h; cases h; done) | exact absurd rfl (hp _ _)

/-- The name of a field is an ordinary attribute. -/
theorem overrides_plus {x : Dict} (hx : Plus x) (t : RType) :
    ∃ e, applyOverrides t x = .ok (t.withAttrs { t.attrs with extra := e }) := by
  rcases hx with rfl | ⟨v, rfl⟩
  · exact ⟨t.attrs.extra, by cases t <;> rfl⟩
  · exact ⟨Dict.set t.attrs.extra "name" v, by cases t <;> rfl⟩

/-- What a reference resolves to, if its name is in the registry. -/
theorem resolve_find {live : Registry} {r : Option (List (String × RType))} {a : Attrs} {s : String} {t : RType}
    (hs : a.alias = .str s) (hx : Plus a.extra) (hf : Registry.find? (r.getD live) s = some t) :
    ∃ e, resolve live r a = .ok ((t.deepcopy (r.getD live)).withAttrs
      { (t.deepcopy (r.getD live)).attrs with extra := e }) := by
  obtain ⟨e, he⟩ := overrides_plus hx (t.deepcopy (r.getD live))
  refine ⟨e, ?_⟩
  unfold resolve
  simp only [hs, Registry.fromAlias, hf]
  exact he

theorem resolve_found {live : Registry} {r : Option (List (String × RType))} {a : Attrs} {u : RType}
    (h : resolve live r a = .ok u) : ∃ s t, a.alias = .str s ∧ Registry.find? (r.getD live) s = some t := by
  unfold resolve at h
  obtain ⟨t, h1, -⟩ := ok_bind h
  unfold Registry.fromAlias at h1
  split at h1
  · split at h1
    · rename_i s hs _ t0 hf
      exact ⟨s, t0, hs, hf⟩
    · cases h1
  · cases h1

/-- What the caller sees is in the set of the callee. -/
theorem mem_back {R R' : List PyVal} {x : PyVal} (h : x ∈ back R R') : x ∈ R' := by
  unfold back at h
  split at h
  · simp at h
  · exact h

theorem mem_add {R : List PyVal} {x y : PyVal} : x ∈ add R y ↔ x ∈ R ∨ x = y := by
  unfold add
  split
  · rename_i h
    constructor
    · exact .inl
    · rintro (h' | rfl)
      · exact h'
      · exact h
  · simp

theorem Al.mono {t u : RType} {x : PyVal} (h : Al u x) (hs : ∀ v, Sub v u → Sub v t) : Al t x := by
  obtain ⟨v, h1, h2, h3⟩ := h
  exact ⟨v, hs v h1, h2, h3⟩

/-- What is known about a result and the sets. -/
def Left (t' : RType) (R S R' S' : List PyVal) : Prop :=
  (∀ x ∈ R', x ∈ R ∨ Al t' x) ∧ (∀ x ∈ S', x ∈ S ∨ Al t' x) ∧
    ∀ r a, Sub (.proxy r a) t' → a.alias ∈ R ∨ a.alias ∈ S ∨ Al t' a.alias

theorem resolveAll_left {f : RType → List PyVal → List PyVal → Except PyErr (RType × List PyVal × List PyVal)}
    (hf : ∀ t R S t' R' S', Flat t → f t R S = .ok (t', R', S') → Left t' R S R' S') {ts : List RType} :
    ∀ {ts' : List RType} {R S R' S' : List PyVal}, FlatAll ts → resolveAll f ts R S = .ok (ts', R', S') →
    (∀ x ∈ R', x ∈ R ∨ ∃ t ∈ ts', Al t x) ∧ (∀ x ∈ S', x ∈ S ∨ ∃ t ∈ ts', Al t x) ∧
      ∀ t ∈ ts', ∀ r a, Sub (.proxy r a) t → a.alias ∈ R ∨ a.alias ∈ S ∨ ∃ t ∈ ts', Al t a.alias := by
  induction ts with
  | nil =>
    intro ts' R S R' S' _ h
    simp only [resolveAll] at h
    cases h
    exact ⟨fun x hx => .inl hx, fun x hx => .inl hx, by simp⟩
  | cons t ts ih =>
    intro ts' R S R' S' hfl h
    obtain ⟨t1, R1, S1, ts1, h1, h2, rfl⟩ := resolveAll_cons h
    simp only [FlatAll] at hfl
    obtain ⟨h3, h4, h5⟩ := hf _ _ _ _ _ _ hfl.1 h1
    obtain ⟨h6, h7, h8⟩ := ih hfl.2 h2
    have e1 : ∀ x, x ∈ R1 → x ∈ R ∨ ∃ t ∈ t1 :: ts1, Al t x := fun x hx =>
      (h3 x hx).imp_right fun h => ⟨t1, by simp, h⟩
    have e2 : ∀ x, x ∈ S1 → x ∈ S ∨ ∃ t ∈ t1 :: ts1, Al t x := fun x hx =>
      (h4 x hx).imp_right fun h => ⟨t1, by simp, h⟩
    have e3 : ∀ x, (∃ t ∈ ts1, Al t x) → ∃ t ∈ t1 :: ts1, Al t x := fun x ⟨t, ht, h⟩ => ⟨t, by simp [ht], h⟩
    refine ⟨fun x hx => ?_, fun x hx => ?_, fun u hu r a hs => ?_⟩
    · rcases h6 x hx with h | h
      · exact e1 x h
      · exact .inr (e3 x h)
    · rcases h7 x hx with h | h
      · exact e2 x h
      · exact .inr (e3 x h)
    · rcases List.mem_cons.mp hu with rfl | hu
      · rcases h5 r a hs with h | h | h
        · exact .inl h
        · exact .inr (.inl h)
        · exact .inr (.inr ⟨_, by simp, h⟩)
      · rcases h8 u hu r a hs with h | h | h
        · rcases e1 _ h with h | h
          · exact .inl h
          · exact .inr (.inr h)
        · rcases e2 _ h with h | h
          · exact .inr (.inl h)
          · exact .inr (.inr h)
        · exact .inr (.inr (e3 _ h))

/-- What `follow` returns. -/
theorem follow_cases {live : Registry} {t u : RType} {R R1 S : List PyVal} (hl : FlatReg live) (ht : Flat t)
    (h : follow live t R S = .ok (u, R1)) :
    Flat u ∧ ((u = t ∧ R1 = R ∧ ∀ r a, t = .proxy r a → a.alias ∈ R ∨ a.alias ∈ S) ∨
      (∃ r a, t = .proxy r a ∧ R1 = add R a.alias ∧ u.attrs.alias = a.alias ∧ ∀ r a, u ≠ .proxy r a)) := by
  by_cases hp : ∃ r a, t = .proxy r a
  · obtain ⟨r, a, rfl⟩ := hp
    simp only [follow] at h
    split at h
    · rename_i hm
      cases h
      refine ⟨ht, .inl ⟨rfl, rfl, ?_⟩⟩
      intro r a h
      cases h
      exact hm
    · obtain ⟨d, h1, h⟩ := ok_bind h
      cases h
      obtain ⟨s, t, h2, h3⟩ := resolve_found h1
      have hx : Plus a.extra := by cases r <;> simp only [Flat] at ht <;> first | exact ht | exact ht.1
      have hr : FlatReg (r.getD live) := by cases r <;> simp only [Flat] at ht <;> first | exact hl | exact ht.2
      obtain ⟨e, he⟩ := resolve_find h2 hx h3
      rw [h1] at he
      cases he
      obtain ⟨h4, h5⟩ := flatReg_find hr h3
      have h6 := deepcopy_other (reg := r.getD live) h4
      have h7 := withAttrs_other (a := { (t.deepcopy (r.getD live)).attrs with extra := e }) h6
      refine ⟨?_, .inr ⟨r, a, rfl, rfl, ?_, withAttrs_other h7⟩⟩
      · rw [flat_withAttrs h7, flat_withAttrs h6]
        exact flat_deepcopy hr t h5
      · generalize (t.deepcopy (r.getD live)).withAttrs { (t.deepcopy (r.getD live)).attrs with extra := e } = d
        cases d <;> rfl
  · rw [follow_other (fun r a h => hp ⟨r, a, h⟩)] at h
    cases h
    exact ⟨ht, .inl ⟨rfl, rfl, fun r a h => absurd ⟨r, a, h⟩ hp⟩⟩

theorem mem_look {t : RType} {S : List PyVal} {x : PyVal} (h : x ∈ look t S) :
    x ∈ S ∨ ((∀ r a, t ≠ .proxy r a) ∧ x = t.attrs.alias) := by
  unfold look at h
  split at h
  · exact .inl h
  · rename_i hp
    split at h
    · exact .inl h
    · rcases mem_add.mp h with h | h
      · exact .inl h
      · exact .inr ⟨fun r a hr => hp r a hr, h⟩

/-- The references that are left are to types that are in the result, or in the sets. -/
theorem resolveF_left {live : Registry} (hl : FlatReg live) (n : Nat) :
    ∀ t R S t' R' S', Flat t → resolveF live n t R S = .ok (t', R', S') → Left t' R S R' S' := by
  induction n with
  | zero => intro t R S t' R' S' _ h; cases h
  | succ n ih =>
    intro t R S t' R' S' ht h
    obtain ⟨u, R1, h1, h2⟩ := resolveF_succ h
    obtain ⟨hu, h3⟩ := follow_cases hl ht h1
    -- the attributes of the result are those of `u`
    have key : ∀ (hn : ∀ r a, t' ≠ .proxy r a) (_ : t'.attrs = u.attrs),
        (∀ x ∈ R1, x ∈ R ∨ Al t' x) ∧ (∀ x ∈ look t S, x ∈ S ∨ Al t' x) := by
      intro hn ha
      constructor
      · intro x hx
        rcases h3 with ⟨-, rfl, -⟩ | ⟨r, a, -, rfl, h4, -⟩
        · exact .inl hx
        · rcases mem_add.mp hx with hx | rfl
          · exact .inl hx
          · exact .inr ⟨t', .refl, hn, by rw [ha, h4]⟩
      · intro x hx
        rcases mem_look hx with hx | ⟨hp, rfl⟩
        · exact .inl hx
        · rcases h3 with ⟨rfl, -, -⟩ | ⟨r, a, rfl, -⟩
          · exact .inr ⟨t', .refl, hn, by rw [ha]⟩
          · exact absurd rfl (hp r a)
    have combine : ∀ {Q Q1 Q2 : List PyVal} {P : PyVal → Prop}, (∀ x ∈ Q1, x ∈ Q ∨ Al t' x) →
        (∀ x ∈ Q2, x ∈ Q1 ∨ P x) → (∀ x, P x → Al t' x) → ∀ x ∈ back Q Q2, x ∈ Q ∨ Al t' x := by
      intro Q Q1 Q2 P g1 g2 g3 x hx
      rcases g2 x (mem_back hx) with h | h
      · exact g1 x h
      · exact .inr (g3 x h)
    rcases h2 with ⟨v, l, w, a, v', R2, S2, rfl, h4, rfl, rfl, rfl⟩ |
      ⟨k, v, a, k', v', R2, S2, R3, S3, rfl, h4, h5, rfl, rfl, rfl⟩ | ⟨ts, a, ts', R2, S2, rfl, h4, rfl, rfl, rfl⟩ |
      ⟨fs, a, fs', R2, S2, rfl, h4, rfl, rfl, rfl⟩ | ⟨hb, rfl, rfl, rfl⟩
    · obtain ⟨k1, k2⟩ := key (by simp) rfl
      simp only [Flat] at hu
      obtain ⟨g1, g2, g3⟩ := ih _ _ _ _ _ _ hu h4
      have up : ∀ x, Al v' x → Al (.list v' l w a) x := fun x h => h.mono fun _ => .list
      refine ⟨combine k1 g1 up, combine k2 g2 up, fun r b hs => ?_⟩
      cases hs with
      | list hs =>
        rcases g3 r b hs with h | h | h
        · rcases k1 _ h with h | h
          · exact .inl h
          · exact .inr (.inr h)
        · rcases k2 _ h with h | h
          · exact .inr (.inl h)
          · exact .inr (.inr h)
        · exact .inr (.inr (up _ h))
    · obtain ⟨k1, k2⟩ := key (by simp) rfl
      simp only [Flat] at hu
      obtain ⟨g1, g2, g3⟩ := ih _ _ _ _ _ _ hu.1 h4
      obtain ⟨g4, g5, g6⟩ := ih _ _ _ _ _ _ hu.2 h5
      have up : ∀ x, Al k' x → Al (.map k' v' a) x := fun x h => h.mono fun _ => .key
      have up' : ∀ x, Al v' x → Al (.map k' v' a) x := fun x h => h.mono fun _ => .value
      have j1 : ∀ x ∈ R2, x ∈ R ∨ Al (.map k' v' a) x := fun x hx => by
        rcases g1 x hx with h | h
        · exact k1 x h
        · exact .inr (up x h)
      have j2 : ∀ x ∈ S2, x ∈ S ∨ Al (.map k' v' a) x := fun x hx => by
        rcases g2 x hx with h | h
        · exact k2 x h
        · exact .inr (up x h)
      refine ⟨combine j1 g4 up', combine j2 g5 up', fun r b hs => ?_⟩
      cases hs with
      | key hs =>
        rcases g3 r b hs with h | h | h
        · rcases k1 _ h with h | h
          · exact .inl h
          · exact .inr (.inr h)
        · rcases k2 _ h with h | h
          · exact .inr (.inl h)
          · exact .inr (.inr h)
        · exact .inr (.inr (up _ h))
      | value hs =>
        rcases g6 r b hs with h | h | h
        · rcases j1 _ h with h | h
          · exact .inl h
          · exact .inr (.inr h)
        · rcases j2 _ h with h | h
          · exact .inr (.inl h)
          · exact .inr (.inr h)
        · exact .inr (.inr (up' _ h))
    · obtain ⟨k1, k2⟩ := key (by simp) rfl
      simp only [Flat] at hu
      obtain ⟨g1, g2, g3⟩ := resolveAll_left ih hu h4
      have up : ∀ x, (∃ t ∈ ts', Al t x) → Al (.union ts' a) x := fun x ⟨t, ht, h⟩ => h.mono fun _ => .member ht
      refine ⟨combine k1 g1 up, combine k2 g2 up, fun r b hs => ?_⟩
      cases hs with
      | member hm hs =>
        rcases g3 _ hm r b hs with h | h | h
        · rcases k1 _ h with h | h
          · exact .inl h
          · exact .inr (.inr h)
        · rcases k2 _ h with h | h
          · exact .inr (.inl h)
          · exact .inr (.inr h)
        · exact .inr (.inr (up _ h))
    · obtain ⟨k1, k2⟩ := key (by simp) rfl
      simp only [Flat] at hu
      obtain ⟨g1, g2, g3⟩ := resolveAll_left ih hu h4
      have up : ∀ x, (∃ t ∈ fs', Al t x) → Al (.struct fs' a) x := fun x ⟨t, ht, h⟩ => h.mono fun _ => .field ht
      refine ⟨combine k1 g1 up, combine k2 g2 up, fun r b hs => ?_⟩
      cases hs with
      | field hm hs =>
        rcases g3 _ hm r b hs with h | h | h
        · rcases k1 _ h with h | h
          · exact .inl h
          · exact .inr (.inr h)
        · rcases k2 _ h with h | h
          · exact .inr (.inl h)
          · exact .inr (.inr h)
        · exact .inr (.inr (up _ h))
    · by_cases hp : ∃ r a, t' = .proxy r a
      · obtain ⟨r, a, rfl⟩ := hp
        rcases h3 with ⟨rfl, rfl, h3⟩ | ⟨_, _, _, _, _, h3⟩
        · refine ⟨fun x hx => .inl (mem_back hx), fun x hx => ?_, fun r' a' hs => ?_⟩
          · rcases mem_look (mem_back hx) with h | ⟨h, -⟩
            · exact .inl h
            · exact absurd rfl (h r a)
          · cases hs
            rcases h3 r a rfl with h | h
            · exact .inl h
            · exact .inr (.inl h)
        · exact absurd rfl (h3 r a)
      · obtain ⟨k1, k2⟩ := key (fun r a h => hp ⟨r, a, h⟩) rfl
        refine ⟨fun x hx => k1 x (mem_back hx), fun x hx => k2 x (mem_back hx), fun r a hs => ?_⟩
        cases hs with
        | refl => exact absurd ⟨r, a, rfl⟩ hp
        | list => exact hb.elim
        | key => exact hb.elim
        | value => exact hb.elim
        | field => exact hb.elim
        | member => exact hb.elim

end Recap.Protobuf
