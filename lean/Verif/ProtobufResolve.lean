import Verif.ProtobufRead

/-!
# Lemmas about the references in Protobuf files
-/

set_option autoImplicit false

namespace Recap.Protobuf

open Recap.Protobuf.Spec Recap.Spec

/-- The types without nested types. -/
def Bare : RType → Prop
  | .list .. | .map .. | .union .. | .struct .. => False
  | _ => True

/-- One step of `resolveF`. -/
theorem resolveF_succ {live : Registry} {n : Nat} {t t' : RType} {R S R' S' : List PyVal}
    (h : resolveF live (n + 1) t R S = .ok (t', R', S')) :
    ∃ u R1, follow live t R (look t S) = .ok (u, R1) ∧
      ((∃ v l w a v' R2 S2, u = .list v l w a ∧ resolveF live n v R1 (look t S) = .ok (v', R2, S2) ∧
          t' = .list v' l w a ∧ R' = back R R2 ∧ S' = back S S2) ∨
       (∃ k v a k' v' R2 S2 R3 S3, u = .map k v a ∧ resolveF live n k R1 (look t S) = .ok (k', R2, S2) ∧
          resolveF live n v R2 S2 = .ok (v', R3, S3) ∧ t' = .map k' v' a ∧ R' = back R R3 ∧ S' = back S S3) ∨
       (∃ ts a ts' R2 S2, u = .union ts a ∧ resolveAll (resolveF live n) ts R1 (look t S) = .ok (ts', R2, S2) ∧
          t' = .union ts' a ∧ R' = back R R2 ∧ S' = back S S2) ∨
       (∃ fs a fs' R2 S2, u = .struct fs a ∧ resolveAll (resolveF live n) fs R1 (look t S) = .ok (fs', R2, S2) ∧
          t' = .struct fs' a ∧ R' = back R R2 ∧ S' = back S S2) ∨
       (Bare u ∧ t' = u ∧ R' = back R R1 ∧ S' = back S (look t S))) := by
  rw [resolveF] at h
  obtain ⟨⟨u, R1⟩, h1, h⟩ := ok_bind h
  refine ⟨u, R1, h1, ?_⟩
  cases u
  case list v l w a =>
    obtain ⟨⟨v', R2, S2⟩, h2, h⟩ := ok_bind h
    cases h
    exact .inl ⟨_, _, _, _, _, _, _, rfl, h2, rfl, rfl, rfl⟩
  case map k v a =>
    obtain ⟨⟨k', R2, S2⟩, h2, h⟩ := ok_bind h
    obtain ⟨⟨v', R3, S3⟩, h3, h⟩ := ok_bind h
    cases h
    exact .inr (.inl ⟨_, _, _, _, _, _, _, _, _, rfl, h2, h3, rfl, rfl, rfl⟩)
  case union ts a =>
    obtain ⟨⟨v', R2, S2⟩, h2, h⟩ := ok_bind h
    cases h
    exact .inr (.inr (.inl ⟨_, _, _, _, _, rfl, h2, rfl, rfl, rfl⟩))
  case struct ts a =>
    obtain ⟨⟨v', R2, S2⟩, h2, h⟩ := ok_bind h
    cases h
    exact .inr (.inr (.inr (.inl ⟨_, _, _, _, _, rfl, h2, rfl, rfl, rfl⟩)))
  all_goals
    cases h
    exact .inr (.inr (.inr (.inr ⟨trivial, rfl, rfl, rfl⟩)))

theorem follow_other {live : Registry} {t : RType} {R S : List PyVal} (h : ∀ r a, t ≠ .proxy r a) :
    follow live t R S = .ok (t, R) := by
  cases t <;> first | rfl | exact absurd rfl (h _ _)

theorem resolveAll_cons {f : RType → List PyVal → List PyVal → Except PyErr (RType × List PyVal × List PyVal)}
    {t : RType} {ts ts' : List RType} {R S R' S' : List PyVal} (h : resolveAll f (t :: ts) R S = .ok (ts', R', S')) :
    ∃ t1 R1 S1 ts1, f t R S = .ok (t1, R1, S1) ∧ resolveAll f ts R1 S1 = .ok (ts1, R', S') ∧ ts' = t1 :: ts1 := by
  simp only [resolveAll] at h
  obtain ⟨⟨t1, R1, S1⟩, h1, h⟩ := ok_bind h
  obtain ⟨⟨ts1, R2, S2⟩, h2, h⟩ := ok_bind h
  cases h
  exact ⟨t1, R1, S1, ts1, h1, h2, rfl⟩

/-- The additional attributes of a reference: those of a field, or none. -/
def Plus (x : Dict) : Prop := x = [] ∨ ∃ v, x = [("name", v)]

/-- What a reference resolves to. -/
theorem resolve_def {D : Decls} {live : Registry} {r : Option (List (String × RType))} {s : String} {x : Dict}
    {u : RType} (hr : GoodReg D (r.getD live)) (hs : '.' ∈ s.toList) (hx : Plus x)
    (h : resolve live r { alias := .str s, extra := x } = .ok u) :
    (∃ ns n es fs, D s ns (.message n es) ∧ u = .struct fs { extra := x } ∧ Fields D ns es fs ∧ GoodAll D fs) ∨
    ∃ ns n values, D s ns (.enum n values) ∧ u = .enum (.list (values.map (·.1))) { extra := x } := by
  unfold resolve at h
  simp only at h
  obtain ⟨t, h1, h⟩ := ok_bind h
  unfold Registry.fromAlias at h1
  simp only at h1
  split at h1
  · rename_i t0 hf
    cases h1
    obtain ⟨h2, h3⟩ := goodReg_find hr hf
    obtain ⟨ns, e, h4, ⟨n, es, fs, rfl, rfl, h5⟩ | ⟨n, values, rfl, rfl⟩⟩ := h2 hs
    · refine .inl ⟨ns, n, es, _, h4, ?_, Fields.copy (r.getD live) h5, ?_⟩
      · rcases hx with rfl | ⟨v, rfl⟩
        · cases h; rfl
        · have : applyOverrides ((RType.struct fs {}).deepcopy (r.getD live)) [("name", v)] =
              .ok (.struct (RType.deepcopyList (r.getD live) fs) { extra := [("name", v)] }) := rfl
          rw [this] at h
          cases h
          rfl
      · exact good_deepcopyAll hr fs h3
    · refine .inr ⟨ns, n, values, h4, ?_⟩
      rcases hx with rfl | ⟨v, rfl⟩
      · cases h; rfl
      · have : applyOverrides ((RType.enum (.list (values.map (·.1))) {}).deepcopy (r.getD live)) [("name", v)] =
            .ok (.enum (.list (values.map (·.1))) { extra := [("name", v)] }) := rfl
        rw [this] at h
        cases h
        rfl
  · cases h1

theorem update_plus {x : Dict} (hx : Plus x) : Dict.update x x = x := by
  rcases hx with rfl | ⟨v, rfl⟩
  · rfl
  · simp [Dict.update, Dict.set]

theorem scalar_bare {s : String} {t : RType} (h : Spec.scalar s = some t) : Bare t ∧ ∀ r a, t ≠ .proxy r a := by
  refine scalar_cases (P := fun _ t => Bare t ∧ ∀ r a, t ≠ .proxy r a) h ?_
  simp [scalars, Bare]

theorem bare_withAttrs {t : RType} (a : Attrs) : Bare (t.withAttrs a) ↔ Bare t := by
  cases t <;> rfl

/-- A type without nested types that is no reference is left as it is. -/
theorem resolveF_bare {live : Registry} {n : Nat} {t t' : RType} {R S R' S' : List PyVal}
    (h : resolveF live n t R S = .ok (t', R', S')) (hb : Bare t) (hp : ∀ r a, t ≠ .proxy r a) : t' = t := by
  cases n with
  | zero => cases h
  | succ n =>
    obtain ⟨u, R1, h1, h2⟩ := resolveF_succ h
    rw [follow_other hp] at h1
    cases h1
    rcases h2 with ⟨_, _, _, _, _, _, _, rfl, _⟩ | ⟨_, _, _, _, _, _, _, _, _, rfl, _⟩ | ⟨_, _, _, _, _, rfl, _⟩ |
      ⟨_, _, _, _, _, rfl, _⟩ | ⟨_, h2, _⟩
    · exact hb.elim
    · exact hb.elim
    · exact hb.elim
    · exact hb.elim
    · exact h2

theorem fields_resolve {D : Decls} {ns : String}
    {f : RType → List PyVal → List PyVal → Except PyErr (RType × List PyVal × List PyVal)}
    (hf : ∀ e t R S t' R' S', FieldReads D ns e t → Good D t → f t R S = .ok (t', R', S') → FieldReads D ns e t')
    {es : List Elem} : ∀ {ts ts' : List RType} {R S R' S' : List PyVal}, Fields D ns es ts → GoodAll D ts →
    resolveAll f ts R S = .ok (ts', R', S') → Fields D ns es ts' := by
  induction es with
  | nil =>
    intro ts ts' R S R' S' h1 _ h3
    cases h1
    simp only [resolveAll] at h3
    cases h3
    exact .nil
  | cons e es ih =>
    intro ts ts' R S R' S' h1 h2 h3
    cases h1 with
    | field h4 h5 =>
      obtain ⟨t1, R1, S1, ts1, h6, h7, rfl⟩ := resolveAll_cons h3
      simp only [GoodAll] at h2
      exact .field (hf _ _ _ _ _ _ _ h4 h2.1 h6) (ih h5 h2.2 h7)
    | skip h4 h5 => exact .skip h4 (ih h5 h2 h3)

theorem members_resolve {D : Decls} {ns : String}
    {f : RType → List PyVal → List PyVal → Except PyErr (RType × List PyVal × List PyVal)}
    (hf : ∀ s x t R S t' R' S', Plus x → Reads D ns s x t → Good D t → f t R S = .ok (t', R', S') → Reads D ns s x t')
    {es : List Elem} : ∀ {ts ts' : List RType} {R S R' S' : List PyVal}, Members D ns es ts → GoodAll D ts →
    resolveAll f ts R S = .ok (ts', R', S') → Members D ns es ts' := by
  induction es with
  | nil =>
    intro ts ts' R S R' S' h1 _ h3
    cases h1
    simp only [resolveAll] at h3
    cases h3
    exact .nil
  | cons e es ih =>
    intro ts ts' R S R' S' h1 h2 h3
    cases h1 with
    | field h4 h5 =>
      obtain ⟨t1, R1, S1, ts1, h6, h7, rfl⟩ := resolveAll_cons h3
      simp only [GoodAll] at h2
      exact .field (hf _ _ _ _ _ _ _ _ (.inr ⟨_, rfl⟩) h4 h2.1 h6) (ih h5 h2.2 h7)
    | skip h4 h5 => exact .skip h4 (ih h5 h2 h3)

/-- Resolving references does not change what a type or a field stands for. -/
theorem resolveF_reads {D : Decls} {live : Registry} (hl : GoodReg D live) (n : Nat) :
    (∀ ns s x t R S t' R' S', Plus x → Reads D ns s x t → Good D t → resolveF live n t R S = .ok (t', R', S') →
      Reads D ns s x t') ∧
    (∀ ns e t R S t' R' S', FieldReads D ns e t → Good D t → resolveF live n t R S = .ok (t', R', S') →
      FieldReads D ns e t') := by
  induction n using Nat.strongRecOn with
  | ind n ih =>
  cases n with
  | zero =>
    exact ⟨fun _ _ _ _ _ _ _ _ _ _ _ _ h => (by cases h), fun _ _ _ _ _ _ _ _ _ _ h => (by cases h)⟩
  | succ n =>
    obtain ⟨ih1, ih2⟩ := ih n (by omega)
    have hreads : ∀ ns s x t R S t' R' S', Plus x → Reads D ns s x t → Good D t →
        resolveF live (n + 1) t R S = .ok (t', R', S') → Reads D ns s x t' := by
      intro ns s x t R S t' R' S' hx ht hg h
      cases ht with
      | scalar hs =>
        obtain ⟨hb, hp⟩ := scalar_bare hs
        rename_i u
        have := resolveF_bare h ((bare_withAttrs _).mpr hb) (by
          intro r a h
          cases u <;> first | (cases h; done) | exact absurd rfl (hp _ _))
        rw [this]
        exact .scalar hs
      | reference hs =>
        rename_i r
        obtain ⟨u, R1, h1, h2⟩ := resolveF_succ h
        simp only [follow] at h1
        split at h1
        · cases h1
          rcases h2 with ⟨_, _, _, _, _, _, _, h, _⟩ | ⟨_, _, _, _, _, _, _, _, _, h, _⟩ | ⟨_, _, _, _, _, h, _⟩ |
            ⟨_, _, _, _, _, h, _⟩ | ⟨_, h2, _⟩
          · cases h
          · cases h
          · cases h
          · cases h
          · rw [h2]; exact .reference hs
        · obtain ⟨d, h3, h1⟩ := ok_bind h1
          have hr : GoodReg D (r.getD live) := by
            cases r with
            | none => exact hl
            | some r => simp only [Good] at hg; exact hg
          rcases resolve_def hr (full_dot _ _) hx h3 with ⟨ns', m, es, fs, h4, rfl, h5, h6⟩ | ⟨ns', m, values, h4, rfl⟩
          · cases h1
            rcases h2 with ⟨_, _, _, _, _, _, _, h, _⟩ | ⟨_, _, _, _, _, _, _, _, _, h, _⟩ | ⟨_, _, _, _, _, h, _⟩ |
              ⟨_, _, fs', _, _, h, h7, h8, _⟩ | ⟨h, _⟩
            · cases h
            · cases h
            · cases h
            · cases h
              rw [h8]
              simp only [RType.attrs, update_plus hx]
              exact .message hs h4 (fields_resolve (fun e t R S t' R' S' => ih2 ns' e t R S t' R' S') h5 h6 h7)
            · exact h.elim
          · cases h1
            rcases h2 with ⟨_, _, _, _, _, _, _, h, _⟩ | ⟨_, _, _, _, _, _, _, _, _, h, _⟩ | ⟨_, _, _, _, _, h, _⟩ |
              ⟨_, _, fs', _, _, h, h7, h8, _⟩ | ⟨h, h8, _⟩
            · cases h
            · cases h
            · cases h
            · cases h
            · rw [h8]
              simp only [RType.attrs, RType.withAttrs, update_plus hx]
              exact .enum hs h4
      | message hs hd hf =>
        obtain ⟨u, R1, h1, h2⟩ := resolveF_succ h
        rw [follow_other (by simp)] at h1
        cases h1
        rcases h2 with ⟨_, _, _, _, _, _, _, h, _⟩ | ⟨_, _, _, _, _, _, _, _, _, h, _⟩ | ⟨_, _, _, _, _, h, _⟩ |
          ⟨_, _, fs', _, _, h, h7, h8, _⟩ | ⟨h, _⟩
        · cases h
        · cases h
        · cases h
        · cases h
          rw [h8]
          simp only [Good] at hg
          exact .message hs hd (fields_resolve (fun e t R S t' R' S' => ih2 _ e t R S t' R' S') hf hg h7)
        · exact h.elim
      | enum hs hd =>
        rw [resolveF_bare h trivial (by simp)]
        exact .enum hs hd
    refine ⟨hreads, ?_⟩
    intro ns e t R S t' R' S' ht hg h
    cases ht with
    | required hr => exact .required (hreads _ _ _ _ _ _ _ _ _ (.inr ⟨_, rfl⟩) hr hg h)
    | null hc => rw [resolveF_bare h trivial (by simp)]; exact .null hc
    | optional hc hs hr =>
      obtain ⟨u, R1, h1, h2⟩ := resolveF_succ h
      rw [follow_other (by simp)] at h1
      cases h1
      rcases h2 with ⟨_, _, _, _, _, _, _, h, _⟩ | ⟨_, _, _, _, _, _, _, _, _, h, _⟩ | ⟨_, _, _, _, _, h, h7, h8, _⟩ |
        ⟨_, _, _, _, _, h, _⟩ | ⟨h, _⟩
      · cases h
      · cases h
      · cases h
        rw [h8]
        simp only [Good, GoodAll, and_true, true_and] at hg
        obtain ⟨t1, R1, S1, ts1, h9, h10, rfl⟩ := resolveAll_cons h7
        obtain ⟨t2, R2, S2, ts2, h11, h12, rfl⟩ := resolveAll_cons h10
        simp only [resolveAll] at h12
        cases h12
        rw [resolveF_bare h9 trivial (by simp)]
        exact .optional hc hs (ih1 _ _ _ _ _ _ _ _ _ (.inl rfl) hr hg h11)
      · cases h
      · exact h.elim
    | repeated hr =>
      obtain ⟨u, R1, h1, h2⟩ := resolveF_succ h
      rw [follow_other (by simp)] at h1
      cases h1
      rcases h2 with ⟨_, _, _, _, _, _, _, h, _⟩ | ⟨_, _, _, _, _, _, _, _, _, h, _⟩ | ⟨_, _, _, _, _, h, h7, h8, _⟩ |
        ⟨_, _, _, _, _, h, _⟩ | ⟨h, _⟩
      · cases h
      · cases h
      · cases h
        rw [h8]
        simp only [Good, GoodAll, and_true, true_and] at hg
        obtain ⟨t1, R1, S1, ts1, h9, h10, rfl⟩ := resolveAll_cons h7
        obtain ⟨t2, R2, S2, ts2, h11, h12, rfl⟩ := resolveAll_cons h10
        simp only [resolveAll] at h12
        cases h12
        rw [resolveF_bare h9 trivial (by simp)]
        cases n with
        | zero => cases h11
        | succ n =>
          obtain ⟨u, R1, h1, h2⟩ := resolveF_succ h11
          rw [follow_other (by simp)] at h1
          cases h1
          rcases h2 with ⟨_, _, _, _, _, _, _, h, h7, h8, _⟩ | ⟨_, _, _, _, _, _, _, _, _, h, _⟩ |
            ⟨_, _, _, _, _, h, _⟩ | ⟨_, _, _, _, _, h, _⟩ | ⟨h, _⟩
          · cases h
            rw [h8]
            exact .repeated ((ih n (by omega)).1 _ _ _ _ _ _ _ _ _ (.inl rfl) hr hg h7)
          · cases h
          · cases h
          · cases h
          · exact h.elim
      · cases h
      · exact h.elim
    | map hk hkey hr =>
      obtain ⟨u, R1, h1, h2⟩ := resolveF_succ h
      rw [follow_other (by simp)] at h1
      cases h1
      rcases h2 with ⟨_, _, _, _, _, _, _, h, _⟩ | ⟨_, _, _, _, _, _, _, _, _, h, _⟩ | ⟨_, _, _, _, _, h, h7, h8, _⟩ |
        ⟨_, _, _, _, _, h, _⟩ | ⟨h, _⟩
      · cases h
      · cases h
      · cases h
        rw [h8]
        simp only [Good, GoodAll, and_true, true_and] at hg
        obtain ⟨t1, R1, S1, ts1, h9, h10, rfl⟩ := resolveAll_cons h7
        obtain ⟨t2, R2, S2, ts2, h11, h12, rfl⟩ := resolveAll_cons h10
        simp only [resolveAll] at h12
        cases h12
        rw [resolveF_bare h9 trivial (by simp)]
        cases n with
        | zero => cases h11
        | succ n =>
          obtain ⟨u, R1, h1, h2⟩ := resolveF_succ h11
          rw [follow_other (by simp)] at h1
          cases h1
          rcases h2 with ⟨_, _, _, _, _, _, _, h, _⟩ | ⟨_, _, _, _, _, _, _, _, _, h, h6, h7, h8, _⟩ |
            ⟨_, _, _, _, _, h, _⟩ | ⟨_, _, _, _, _, h, _⟩ | ⟨h, _⟩
          · cases h
          · cases h
            rw [h8]
            obtain ⟨hb, hp⟩ := scalar_bare hk
            rw [resolveF_bare h6 hb hp]
            exact .map hk hkey ((ih n (by omega)).1 _ _ _ _ _ _ _ _ _ (.inl rfl) hr hg.2 h7)
          · cases h
          · cases h
          · exact h.elim
      · cases h
      · exact h.elim
    | oneof hm =>
      obtain ⟨u, R1, h1, h2⟩ := resolveF_succ h
      rw [follow_other (by simp)] at h1
      cases h1
      rcases h2 with ⟨_, _, _, _, _, _, _, h, _⟩ | ⟨_, _, _, _, _, _, _, _, _, h, _⟩ | ⟨_, _, _, _, _, h, h7, h8, _⟩ |
        ⟨_, _, _, _, _, h, _⟩ | ⟨h, _⟩
      · cases h
      · cases h
      · cases h
        rw [h8]
        simp only [Good, GoodAll, true_and] at hg
        obtain ⟨t1, R1, S1, ts1, h9, h10, rfl⟩ := resolveAll_cons h7
        rw [resolveF_bare h9 trivial (by simp)]
        exact .oneof (members_resolve (fun s x t R S t' R' S' => ih1 ns s x t R S t' R' S') hm hg h10)
      · cases h
      · exact h.elim

/-- The namespace in which a file is read. -/
theorem entered_last (c : Converter) (file : List Elem) :
    (entered c file).getLast? = (packageOf file).or c.namespaces.getLast? := by
  unfold entered
  split
  · rename_i h; rw [h]; simp
  · rename_i h; rw [h]; simp

/-- What it takes to read a file. -/
theorem toRecap_ok {c c' : Converter} {file : List Elem} {t : RType} (h : toRecap c file = .ok (t, c')) :
    ∃ root ns, (packageOf file).or c.namespaces.getLast? = some ns ∧
      parseTop (some ns) file .none c.registry = .ok (some root, c'.registry) ∧
      c'.namespaces = (entered c file).dropLast ∧ resolveProxies c'.registry root = .ok t ∧ ∃ fs a, t = .struct fs a := by
  unfold toRecap at h
  obtain ⟨⟨root, c1⟩, h1, h⟩ := ok_bind h
  obtain ⟨t1, h2, h⟩ := ok_bind h
  have h3 : t1 = t ∧ c1 = c' ∧ ∃ fs a, t = .struct fs a := by
    cases t1 <;> cases h
    exact ⟨rfl, rfl, _, _, rfl⟩
  obtain ⟨rfl, rfl, h3⟩ := h3
  unfold parse at h1
  simp only at h1
  obtain ⟨⟨root1, reg⟩, h4, h1⟩ := ok_bind h1
  cases root1 with
  | none => cases h1
  | some r =>
    simp only at h1
    split at h1
    · cases h1
    · rename_i hne
      cases h1
      cases hl : (entered c file).getLast? with
      | none => exact absurd (List.getLast?_eq_none_iff.mp hl) hne
      | some ns =>
        rw [hl] at h4
        exact ⟨root, ns, by rw [← entered_last, hl], h4, rfl, h2, h3⟩

/-- What is read from a file. -/
theorem toRecap_fields {D : Decls} {c c' : Converter} {file : List Elem} {t : RType} {ns : String}
    (h : toRecap c file = .ok (t, c')) (hc : GoodReg D c.registry)
    (hns : (packageOf file).or c.namespaces.getLast? = some ns) (hd : Declared D ns file) :
    GoodReg D c'.registry ∧ ∃ name es fs, firstMessage file = some (name, es) ∧
      t = .struct fs { alias := .str (ns ++ "." ++ name) } ∧ Fields D ns es fs := by
  obtain ⟨root, ns', h1, h2, -, h3, h4⟩ := toRecap_ok h
  rw [hns] at h1
  cases h1
  obtain ⟨h5, h6⟩ := parseTop_good h2 hd hc
  refine ⟨h5, ?_⟩
  rcases h6 root rfl with h7 | ⟨-, name, xs, fs, h7, rfl, h8, h9⟩
  · cases h7
  · unfold resolveProxies at h3
    obtain ⟨⟨t', R', S'⟩, h10, h3⟩ := ok_bind h3
    cases h3
    cases hw : weight (weightReg 0 c'.registry) (.struct fs { alias := .str (ns ++ "." ++ name) }) with
    | zero => rw [hw] at h10; cases h10
    | succ n =>
      rw [hw] at h10
      obtain ⟨u, R1, h1, h2⟩ := resolveF_succ h10
      rw [follow_other (by simp)] at h1
      cases h1
      rcases h2 with ⟨_, _, _, _, _, _, _, h, _⟩ | ⟨_, _, _, _, _, _, _, _, _, h, _⟩ | ⟨_, _, _, _, _, h, _⟩ |
        ⟨_, _, fs', _, _, h, h11, h12, _⟩ | ⟨h, _⟩
      · cases h
      · cases h
      · cases h
      · cases h
        refine ⟨name, xs, fs', h7, h12, ?_⟩
        exact fields_resolve (fun e t R S t' R' S' => (resolveF_reads h5 n).2 ns e t R S t' R' S') h8 h9 h11
      · exact h.elim

/-- The registry of a converter holds what it has read. -/
theorem has_read_good {c : Converter} {D : Decls} (h : Has_read c D) : GoodReg D c.registry := by
  induction h with
  | new => exact goodReg_new _
  | read _ hns hr ih =>
    exact (toRecap_fields hr (goodReg_mono (fun s n e h => .inl h) _ ih) hns (fun s n e h => .inr h)).1

end Recap.Protobuf
