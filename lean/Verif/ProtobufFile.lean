import Verif.ProtobufWrite

/-!
# Lemmas about written Protobuf files
-/

set_option autoImplicit false

namespace Recap.Protobuf

open Recap.Protobuf.Spec Recap.Spec

/-- What it takes to write a file. -/
theorem fromRecap_ok {t : RType} {file : List Elem} (h : fromRecap t = .ok file) :
    ∃ st p n es, gather t [] = .ok st ∧ least (st.map (·.1)) = some p ∧
      (∀ q ∈ st, p.toList <+: q.1.toList) ∧ construct st n 1 p = .ok es ∧ file = .package p :: es ∧
      (∀ q d, In st q d ↔ Source t q d) ∧ t.attrs.alias ≠ .none := by
  unfold fromRecap at h
  split at h
  · cases h
  rename_i ha
  obtain ⟨st, h1, h⟩ := ok_bind h
  split at h
  · cases h
  rename_i p h2
  split at h
  · rename_i h3
    obtain ⟨es, h4, h⟩ := ok_bind h
    cases h
    refine ⟨st, p, _, es, h1, h2, ?_, h4, rfl, ?_, ha⟩
    · intro q hq
      have := List.all_eq_true.mp h3 q hq
      exact List.isPrefixOf_iff_prefix.mp this
    · intro q d
      rw [gather_has t h1]
      simp [In, declared]
  · cases h

theorem file_made {t : RType} {file : List Elem} (h : fromRecap t = .ok file) {e : Elem} (hw : Within e file)
    (hn : ∃ m, Spec.nameOf e = some m) : ∃ q, Made t q e := by
  obtain ⟨st, p, n, es, -, -, -, h4, rfl, h5, -⟩ := fromRecap_ok h
  refine construct_within (fun q d hd => (h5 q d).mp hd) h4 ?_ hn
  cases hw with
  | here hm =>
    rcases List.mem_cons.mp hm with rfl | hm
    · obtain ⟨m, hm⟩ := hn; simp [Spec.nameOf] at hm
    · exact .here hm
  | inside hm hw =>
    rcases List.mem_cons.mp hm with hm | hm
    · cases hm
    · exact .inside hm hw

/-! ## Numbers -/

theorem numbersAll_append (es es' : List Elem) : numbersAll (es ++ es') = numbersAll es ++ numbersAll es' := by
  induction es with
  | nil => simp [numbersAll]
  | cons e es ih => simp [numbersAll, ih]

theorem numbersAll_named {es : List Elem} (h : ∀ x ∈ es, ∃ m, Spec.nameOf x = some m) : numbersAll es = [] := by
  induction es with
  | nil => simp [numbersAll]
  | cons e es ih =>
    obtain ⟨m, hm⟩ := h e (by simp)
    rw [numbersAll, ih (fun x hx => h x (by simp [hx]))]
    cases e <;> simp [Spec.nameOf] at hm <;> simp [numbers]

mutual
theorem toField_ge : ∀ (t : RType) {n : Int} {e : Elem}, toField n t = .ok e → ∀ x ∈ numbers e, n ≤ x
  | t, n, e, h => by
    rcases toField_kind t h with ⟨_, _, _, rfl⟩ | ⟨_, _, _, rfl⟩ | ⟨ts, a, nm, es, rfl, rfl, h1, -⟩
    · simp [numbers]
    · simp [numbers]
    · simp only [numbers]; exact toMembers_ge ts h1
  termination_by t => sizeOf t
theorem toMembers_ge : ∀ (ts : List RType) {n : Int} {es : List Elem}, toMembers n ts = .ok es →
    ∀ x ∈ numbersAll es, n ≤ x
  | [], n, es, h => by simp only [toMembers] at h; cases h; simp [numbersAll]
  | t :: ts, n, es, h => by
    simp only [toMembers] at h
    split at h
    · exact toMembers_ge ts h
    · obtain ⟨e, h1, h⟩ := ok_bind h
      obtain ⟨es1, h2, h⟩ := ok_bind h
      cases h
      intro x hx
      rw [numbersAll] at hx
      rcases List.mem_append.mp hx with hx | hx
      · exact toField_ge t h1 x hx
      · have := toMembers_ge ts h2 x hx
        omega
  termination_by ts => sizeOf ts
end

/-- What is not written as a oneof has at most the given number. -/
theorem toField_single {t : RType} {n : Int} {e : Elem} (h : toField n t = .ok e) (hc : ¬ Choice t) :
    numbers e = [n] ∨ numbers e = [] := by
  rcases toField_kind t h with ⟨_, _, _, rfl⟩ | ⟨_, _, _, rfl⟩ | ⟨ts, a, nm, es, rfl, rfl, h1, h2⟩
  · exact .inl rfl
  · exact .inl rfl
  · have hl := toMembers_length h1
    have : es = [] := by
      apply List.eq_nil_of_length_eq_zero
      have : ¬ 2 ≤ (members ts).length := fun h => hc ⟨ts, a, rfl, h⟩
      omega
    subst this
    exact .inr (by simp [numbers, numbersAll])

theorem toMembers_nodup {ts : List RType} (hc : ∀ t ∈ ts, ¬ Choice t) : ∀ {n : Int} {es : List Elem},
    toMembers n ts = .ok es → (numbersAll es).Nodup := by
  induction ts with
  | nil => intro n es h; simp only [toMembers] at h; cases h; simp [numbersAll]
  | cons t ts ih =>
    intro n es h
    simp only [toMembers] at h
    split at h
    · exact ih (fun t ht => hc t (by simp [ht])) h
    · obtain ⟨e, h1, h⟩ := ok_bind h
      obtain ⟨es1, h2, h⟩ := ok_bind h
      cases h
      have h3 := ih (fun t ht => hc t (by simp [ht])) h2
      rw [numbersAll]
      rcases toField_single h1 (hc t (by simp)) with h4 | h4
      · rw [h4]
        refine List.nodup_append.mpr ⟨by simp, h3, fun x hx y hy => ?_⟩
        have := toMembers_ge ts h2 y hy
        simp at hx
        omega
      · rw [h4]; simpa using h3

/-- The numbers of a field are different if the choices in it are not nested. -/
theorem toField_nodup {t : RType} {n : Int} {e : Elem} (h : toField n t = .ok e)
    (hc : ∀ ts a, t = .union ts a → ∀ u ∈ ts, ¬ Choice u) : (numbers e).Nodup := by
  rcases toField_kind t h with ⟨_, _, _, rfl⟩ | ⟨_, _, _, rfl⟩ | ⟨ts, a, nm, es, rfl, rfl, h1, h2⟩
  · simp [numbers]
  · simp [numbers]
  · simp only [numbers]
    exact toMembers_nodup (hc ts a rfl) h1

theorem toFields_nodup {fs : List RType} : ∀ {n : Int} {es : List Elem}, toFields n fs = .ok es →
    (∀ f ∈ fs.dropLast, ¬ Choice f) → (∀ ts a, fs.getLast? = some (.union ts a) → ∀ u ∈ ts, ¬ Choice u) →
    (numbersAll es).Nodup ∧ ∀ x ∈ numbersAll es, n ≤ x := by
  induction fs with
  | nil => intro n es h _ _; cases h; simp [numbersAll]
  | cons f fs ih =>
    intro n es h hi hl
    simp only [toFields] at h
    obtain ⟨e, h1, h⟩ := ok_bind h
    obtain ⟨es1, h2, h⟩ := ok_bind h
    cases h
    rw [numbersAll]
    cases fs with
    | nil =>
      cases h2
      simp only [numbersAll, List.append_nil]
      exact ⟨toField_nodup h1 (fun ts a ht => hl ts a (by simp [ht])), toField_ge f h1⟩
    | cons g gs =>
      obtain ⟨h3, h4⟩ := ih h2 (fun x hx => hi x (by simp only [List.dropLast_cons_cons]; exact List.mem_cons_of_mem _ hx))
        (fun ts a ht => hl ts a (by rw [List.getLast?_cons_cons]; exact ht))
      rcases toField_single h1 (hi f (by simp)) with h5 | h5
      · rw [h5]
        refine ⟨List.nodup_append.mpr ⟨by simp, h3, fun x hx y hy => ?_⟩, fun x hx => ?_⟩
        · have := h4 y hy; simp at hx; omega
        · rcases List.mem_append.mp hx with hx | hx
          · simp at hx; omega
          · have := h4 x hx; omega
      · rw [h5]
        refine ⟨by simpa using h3, fun x hx => ?_⟩
        have := h4 x (by simpa using hx)
        omega

/-! ## Types of fields -/

theorem typesAll_append (es es' : List Elem) : typesAll (es ++ es') = typesAll es ++ typesAll es' := by
  induction es with
  | nil => simp [typesAll]
  | cons e es ih => simp [typesAll, ih]

theorem typesAll_named {es : List Elem} (h : ∀ x ∈ es, ∃ m, Spec.nameOf x = some m) : typesAll es = [] := by
  induction es with
  | nil => simp [typesAll]
  | cons e es ih =>
    obtain ⟨m, hm⟩ := h e (by simp)
    rw [typesAll, ih (fun x hx => h x (by simp [hx]))]
    cases e <;> simp [Spec.nameOf] at hm <;> simp [types]

theorem scalarOf_builtin {t : RType} {s : String} (h : scalarOf t = .ok s) : Builtin s := by
  unfold scalarOf at h
  unfold Builtin
  repeat' split at h
  all_goals first | (cases h; done) | (cases h; simp; done) | skip

theorem names_mono {t u : RType} {s : String} (h : Names u s) (hs : ∀ v, Sub v u → Sub v t) : Names t s := by
  obtain ⟨v, h1, h2⟩ := h
  exact ⟨v, hs v h1, h2⟩

theorem pathOf_ok {alias : PyVal} {p : String} (h : pathOf alias = .ok p) : ∃ s, alias = .str s ∧ p = "." ++ s := by
  unfold pathOf at h
  split at h
  · cases h; exact ⟨_, rfl, rfl⟩
  · cases h
  · cases h

mutual
/-- The types of what is written for a field. -/
theorem toField_types : ∀ (t : RType) {n : Int} {e : Elem}, toField n t = .ok e →
    ∀ s ∈ types e, Builtin s ∨ ∃ x, s = "." ++ x ∧ Names t x
  | .null a, n, e, h => by
    simp only [toField] at h; obtain ⟨_, h1, h⟩ := ok_bind h; cases h
    simp only [types, List.mem_singleton]; rintro s rfl; exact .inl (scalarOf_builtin h1)
  | .bool a, n, e, h => by
    simp only [toField] at h; obtain ⟨_, h1, h⟩ := ok_bind h; cases h
    simp only [types, List.mem_singleton]; rintro s rfl; exact .inl (scalarOf_builtin h1)
  | .int b s a, n, e, h => by
    simp only [toField] at h; obtain ⟨_, h1, h⟩ := ok_bind h; cases h
    simp only [types, List.mem_singleton]; rintro s rfl; exact .inl (scalarOf_builtin h1)
  | .float b a, n, e, h => by
    simp only [toField] at h; obtain ⟨_, h1, h⟩ := ok_bind h; cases h
    simp only [types, List.mem_singleton]; rintro s rfl; exact .inl (scalarOf_builtin h1)
  | .string b s a, n, e, h => by
    simp only [toField] at h; obtain ⟨_, h1, h⟩ := ok_bind h; cases h
    simp only [types, List.mem_singleton]; rintro s rfl; exact .inl (scalarOf_builtin h1)
  | .bytes b s a, n, e, h => by
    simp only [toField] at h; obtain ⟨_, h1, h⟩ := ok_bind h; cases h
    simp only [types, List.mem_singleton]; rintro s rfl; exact .inl (scalarOf_builtin h1)
  | .proxy r a, n, e, h => by
    simp only [toField] at h; obtain ⟨_, h1, h⟩ := ok_bind h; cases h
    obtain ⟨x, h2, rfl⟩ := pathOf_ok h1
    simp only [types, List.mem_singleton]; rintro s rfl
    exact .inr ⟨x, rfl, _, .refl, h2, .inr (.inr ⟨_, _, rfl⟩)⟩
  | .struct fs a, n, e, h => by
    simp only [toField] at h; obtain ⟨_, h1, h⟩ := ok_bind h; cases h
    obtain ⟨x, h2, rfl⟩ := pathOf_ok h1
    simp only [types, List.mem_singleton]; rintro s rfl
    exact .inr ⟨x, rfl, _, .refl, h2, .inl ⟨_, _, rfl⟩⟩
  | .enum ss a, n, e, h => by
    simp only [toField] at h; obtain ⟨_, h1, h⟩ := ok_bind h; cases h
    obtain ⟨x, h2, rfl⟩ := pathOf_ok h1
    simp only [types, List.mem_singleton]; rintro s rfl
    exact .inr ⟨x, rfl, _, .refl, h2, .inr (.inl ⟨_, _, rfl⟩)⟩
  | .list t l w a, n, e, h => by
    simp only [toField] at h
    obtain ⟨x, h1, h⟩ := ok_bind h
    obtain ⟨nm, k, ty, c, rfl, rfl⟩ := setCard_ok h
    intro s hs
    refine (toField_types t h1 s (by simpa [types] using hs)).imp_right ?_
    rintro ⟨x, hx, h⟩
    exact ⟨x, hx, names_mono h fun v => .list⟩
  | .map k t a, n, e, h => by
    simp only [toField] at h
    obtain ⟨ek, h1, h⟩ := ok_bind h
    obtain ⟨ev, h2, h⟩ := ok_bind h
    obtain ⟨tk, h3, h⟩ := ok_bind h
    obtain ⟨tv, h4, h⟩ := ok_bind h
    cases h
    have hk : tk ∈ types ek := by cases ek <;> cases h3; simp [types]
    have hv : tv ∈ types ev := by cases ev <;> cases h4; simp [types]
    simp only [types, List.mem_cons, List.not_mem_nil, or_false]
    rintro s (rfl | rfl)
    · refine (toField_types k h1 _ hk).imp_right ?_
      rintro ⟨x, hx, h⟩
      exact ⟨x, hx, names_mono h fun v => .key⟩
    · refine (toField_types t h2 _ hv).imp_right ?_
      rintro ⟨x, hx, h⟩
      exact ⟨x, hx, names_mono h fun v => .value⟩
  | .union ts a, n, e, h => by
    obtain ⟨es, h1, h2⟩ := toField_union h
    intro s hs
    have : s ∈ typesAll es := by
      rcases h2 with ⟨x, rfl, h3⟩ | ⟨rfl, -⟩
      · obtain ⟨nm, k, ty, c, rfl, rfl⟩ := setCard_ok h3
        simpa [types, typesAll] using hs
      · simpa [types] using hs
    refine (toMembers_types ts h1 s this).imp_right ?_
    rintro ⟨x, hx, t, ht, h⟩
    exact ⟨x, hx, names_mono h fun v hv => .member ht hv⟩
theorem toMembers_types : ∀ (ts : List RType) {n : Int} {es : List Elem}, toMembers n ts = .ok es →
    ∀ s ∈ typesAll es, Builtin s ∨ ∃ x, s = "." ++ x ∧ ∃ t ∈ ts, Names t x
  | [], n, es, h => by simp only [toMembers] at h; cases h; simp [typesAll]
  | t :: ts, n, es, h => by
    simp only [toMembers] at h
    intro s hs
    split at h
    · refine (toMembers_types ts h s hs).imp_right ?_
      rintro ⟨x, hx, u, hu, h⟩
      exact ⟨x, hx, u, by simp [hu], h⟩
    · obtain ⟨e, h1, h⟩ := ok_bind h
      obtain ⟨es1, h2, h⟩ := ok_bind h
      cases h
      rw [typesAll] at hs
      rcases List.mem_append.mp hs with hs | hs
      · refine (toField_types t h1 s hs).imp_right ?_
        rintro ⟨x, hx, h⟩
        exact ⟨x, hx, t, by simp, h⟩
      · refine (toMembers_types ts h2 s hs).imp_right ?_
        rintro ⟨x, hx, u, hu, h⟩
        exact ⟨x, hx, u, by simp [hu], h⟩
end

theorem toFields_types {fs : List RType} {n : Int} {es : List Elem} (h : toFields n fs = .ok es) :
    ∀ s ∈ typesAll es, Builtin s ∨ ∃ x, s = "." ++ x ∧ ∃ t ∈ fs, Names t x := by
  induction fs generalizing n es with
  | nil => cases h; simp [typesAll]
  | cons t ts ih =>
    simp only [toFields] at h
    obtain ⟨e, h1, h⟩ := ok_bind h
    obtain ⟨es1, h2, h⟩ := ok_bind h
    cases h
    intro s hs
    rw [typesAll] at hs
    rcases List.mem_append.mp hs with hs | hs
    · refine (toField_types t h1 s hs).imp_right ?_
      rintro ⟨x, hx, h⟩
      exact ⟨x, hx, t, by simp, h⟩
    · refine (ih h2 s hs).imp_right ?_
      rintro ⟨x, hx, u, hu, h⟩
      exact ⟨x, hx, u, by simp [hu], h⟩

/-! ## Declarations -/

theorem gatherAll_sub {ts : List RType} {t : RType} (ht : t ∈ ts) : ∀ {st st' : Store}, gatherAll ts st = .ok st' →
    ∃ st1 st2, gather t st1 = .ok st2 := by
  induction ts with
  | nil => cases ht
  | cons u ts ih =>
    intro st st' h
    simp only [gatherAll] at h
    obtain ⟨st1, h1, h2⟩ := ok_bind h
    rcases List.mem_cons.mp ht with rfl | ht
    · exact ⟨_, _, h1⟩
    · exact ih ht h2

theorem gatherFields_sub {ts : List RType} {t : RType} (ht : t ∈ ts) : ∀ {n : Int} {st st' : Store} {es : List Elem},
    gatherFields n ts st = .ok (es, st') → ∃ st1 st2, gather t st1 = .ok st2 := by
  induction ts with
  | nil => cases ht
  | cons u ts ih =>
    intro n st st' es h
    simp only [gatherFields] at h
    obtain ⟨e, -, h⟩ := ok_bind h
    obtain ⟨st1, h1, h⟩ := ok_bind h
    obtain ⟨⟨es1, st2⟩, h2, h⟩ := ok_bind h
    rcases List.mem_cons.mp ht with rfl | ht
    · exact ⟨_, _, h1⟩
    · exact ih ht h2

/-- What is nested in something that is gathered is gathered. -/
theorem gather_sub {t u : RType} (hs : Sub u t) : ∀ {st st' : Store}, gather t st = .ok st' →
    ∃ st1 st2, gather u st1 = .ok st2 := by
  induction hs with
  | refl => intro st st' h; exact ⟨_, _, h⟩
  | list _ ih => intro st st' h; simp only [gather] at h; exact ih h
  | key _ ih =>
    intro st st' h; simp only [gather] at h
    obtain ⟨_, h1, _⟩ := ok_bind h
    exact ih h1
  | value _ ih =>
    intro st st' h; simp only [gather] at h
    obtain ⟨_, _, h1⟩ := ok_bind h
    exact ih h1
  | member hm _ ih =>
    intro st st' h; simp only [gather] at h
    obtain ⟨_, _, h1⟩ := gatherAll_sub hm h
    exact ih h1
  | field hm _ ih =>
    intro st st' h; simp only [gather] at h
    obtain ⟨_, _, h⟩ := ok_bind h
    obtain ⟨⟨_, _⟩, h, _⟩ := ok_bind h
    obtain ⟨_, _, h1⟩ := gatherFields_sub hm h
    exact ih h1

/-- The fields of a struct that is gathered can be written. -/
theorem gather_struct {fs : List RType} {a : Attrs} {st st' : Store} (h : gather (.struct fs a) st = .ok st') :
    ∃ p n es, Alias a p n ∧ toFields 1 fs = .ok es := by
  simp only [gather] at h
  obtain ⟨⟨p, n⟩, h1, h⟩ := ok_bind h
  obtain ⟨⟨es, _⟩, h2, -⟩ := ok_bind h
  exact ⟨p, n, es, structName_ok.mp h1, (gatherFields_has fs h2).1⟩

theorem gather_enum {s : PyVal} {a : Attrs} {st st' : Store} (h : gather (.enum s a) st = .ok st') :
    ∃ p n xs, Alias a p n ∧ s.iter = .ok xs := by
  simp only [gather] at h
  obtain ⟨⟨p, n⟩, h1, h⟩ := ok_bind h
  obtain ⟨xs, h2, -⟩ := ok_bind h
  exact ⟨p, n, xs, enumName_ok.mp h1, h2⟩

/-- What is declared in a package that is reached. -/
theorem reached_construct {t : RType} {st : Store} {n : Nat} {p q : String} {es : List Elem}
    (hg : gather t [] = .ok st) (hst : ∀ q d, In st q d ↔ Source t q d) (hc : construct st n 1 p = .ok es)
    (hr : Reached t p q) : ∃ m calls out, 0 < calls ∧ construct st m calls q = .ok out ∧
      ∀ e ∈ out, ∀ k, Spec.nameOf e = some k → Declares (.package p :: es) (q ++ "." ++ k) e := by
  induction hr with
  | root => exact ⟨n, 1, es, by omega, hc, fun e he k hk => .top (by simp) (by simp [he]) hk⟩
  | nested _ hs ha ih =>
    rename_i q fs a name _
    obtain ⟨m, calls, out, h1, h2, h3⟩ := ih
    obtain ⟨_, _, h4⟩ := gather_sub hs hg
    obtain ⟨_, _, fields, -, h5⟩ := gather_struct h4
    have hin : In st q (.message name fields) := (hst _ _).mpr (.inl ⟨fs, a, name, fields, hs, ha, h5, rfl⟩)
    obtain ⟨m', e, he, rfl, hg⟩ := (construct_mem h2).2 _ hin
    rcases hg with ⟨name', es', k, sub, h6, h7, h8, rfl⟩ | ⟨-, hne⟩
    · cases h6
      refine ⟨m', k, sub, h7 hin h1, h8, fun e he' k hk => ?_⟩
      exact .nested (h3 _ he _ rfl) (List.mem_append.mpr (.inr (times_mem h1 he'))) hk
    · exact absurd rfl (hne _ _)

theorem alias_unique {a : Attrs} {p q n m : String} (h : Alias a p n) (h' : Alias a q m) : p = q ∧ n = m := by
  have h1 := structName_ok.mpr h
  have h2 := structName_ok.mpr h'
  rw [h1] at h2
  cases h2
  exact ⟨rfl, rfl⟩

/-- A struct or enum whose package is reached is declared. -/
theorem declared_of_reached {t : RType} {file : List Elem} {p q n : String} {u : RType}
    (h : fromRecap t = .ok file) (hp : .package p ∈ file) (hu : Has t u q n) (hr : Reached t p q) :
    (∃ fs a es rest, u = .struct fs a ∧ toFields 1 fs = .ok es ∧ (∀ x ∈ rest, ∃ m, Spec.nameOf x = some m) ∧
      Declares file (q ++ "." ++ n) (.message n (es ++ rest))) ∨
    ∃ s a xs, u = .enum s a ∧ s.iter = .ok xs ∧ Declares file (q ++ "." ++ n) (.enum n (numbered 0 xs)) := by
  obtain ⟨st, p', fuel, es, h1, -, -, h2, rfl, h3, -⟩ := fromRecap_ok h
  have : p' = p := by
    rcases List.mem_cons.mp hp with hp | hp
    · cases hp; rfl
    · rcases construct_named (fun q d hd => (h3 q d).mp hd) h2 _ hp with ⟨_, _, _, _, _, _, _, _, h, _⟩ | ⟨_, _, _, _, _, _, _, h⟩ <;>
        cases h
  subst this
  obtain ⟨m, calls, out, hcalls, hcon, hdecl⟩ := reached_construct h1 h3 h2 hr
  obtain ⟨hs, ⟨fs, a, rfl, ha⟩ | ⟨s, a, rfl, ha⟩⟩ := hu
  · obtain ⟨_, _, h4⟩ := gather_sub hs h1
    obtain ⟨_, _, fields, -, h5⟩ := gather_struct h4
    have hin : In st q (.message n fields) := (h3 _ _).mpr (.inl ⟨fs, a, n, fields, hs, ha, h5, rfl⟩)
    obtain ⟨m', e, he, rfl, hg⟩ := (construct_mem hcon).2 _ hin
    rcases hg with ⟨name', es', k, sub, h6, h7, h8, rfl⟩ | ⟨-, hne⟩
    · cases h6
      refine .inl ⟨fs, a, fields, times calls sub, rfl, h5, fun x hx => ?_, hdecl _ he _ rfl⟩
      rcases construct_named (fun q d hd => (h3 q d).mp hd) h8 _ (mem_times hx) with
        ⟨_, _, k, _, _, _, _, _, rfl, _⟩ | ⟨_, _, k, _, _, _, _, rfl⟩ <;> exact ⟨k, rfl⟩
    · exact absurd rfl (hne _ _)
  · obtain ⟨_, _, h4⟩ := gather_sub hs h1
    obtain ⟨_, _, xs, -, h5⟩ := gather_enum h4
    have hin : In st q (.enum n (numbered 0 xs)) := (h3 _ _).mpr (.inr ⟨s, a, n, xs, hs, ha, h5, rfl⟩)
    obtain ⟨m', e, he, rfl, hg⟩ := (construct_mem hcon).2 _ hin
    rcases hg with ⟨name', es', k, sub, h6, -⟩ | ⟨rfl, -⟩
    · cases h6
    · exact .inr ⟨s, a, xs, rfl, h5, hdecl _ he _ rfl⟩

/-- What is declared is declared in its package. -/
theorem declares_made {t : RType} {file : List Elem} {s : String} {e : Elem} (h : fromRecap t = .ok file)
    (hd : Declares file s e) : ∃ q n, s = q ++ "." ++ n ∧ Spec.nameOf e = some n ∧ Made t q e := by
  obtain ⟨st, p, fuel, es, -, -, -, h2, rfl, h3, -⟩ := fromRecap_ok h
  have hst : ∀ q d, In st q d → Source t q d := fun q d hd => (h3 q d).mp hd
  have key : ∃ m calls q out n, construct st m calls q = .ok out ∧ e ∈ out ∧ Spec.nameOf e = some n ∧
      s = q ++ "." ++ n := by
    induction hd with
    | top hp he hn =>
      rename_i p' e n
      rcases List.mem_cons.mp hp with hp | hp
      · cases hp
        rcases List.mem_cons.mp he with rfl | he
        · simp [Spec.nameOf] at hn
        · exact ⟨fuel, 1, p, es, n, h2, he, hn, rfl⟩
      · rcases construct_named hst h2 _ hp with ⟨_, _, _, _, _, _, _, _, h, _⟩ | ⟨_, _, _, _, _, _, _, h⟩ <;>
          cases h
    | nested _ he hn ih =>
      rename_i q' n' es' e' m' _
      obtain ⟨m, calls, q, out, n, h4, h5, h6, h7⟩ := ih
      simp only [Spec.nameOf, Option.some.injEq] at h6
      subst h6
      obtain ⟨k, d, -, hin, hg⟩ := (construct_mem h4).1 _ h5
      rcases hg with ⟨name, es1, k', sub, rfl, -, h8, h9⟩ | ⟨rfl, hne⟩
      · cases h9
        refine ⟨k, k', _, sub, m', h8, ?_, hn, by rw [h7]⟩
        rcases List.mem_append.mp he with he | he
        · rcases hst _ _ hin with ⟨fs, a, n', es2, h10, h11, h12, h13⟩ | ⟨_, _, _, _, _, _, _, h13⟩
          · cases h13
            rw [toFields_nameless h12 _ he] at hn
            cases hn
          · cases h13
        · exact mem_times he
      · exact absurd rfl (hne _ _)
  obtain ⟨m, calls, q, out, n, h4, h5, h6, h7⟩ := key
  exact ⟨q, n, h7, h6, construct_named hst h4 e h5⟩

/-! ## Nesting ends -/

theorem mapM_ok {α β : Type} {f : α → Except PyErr β} : ∀ {xs : List α}, (∀ x ∈ xs, ∃ y, f x = .ok y) →
    ∃ ys, xs.mapM f = .ok ys
  | [], _ => ⟨[], rfl⟩
  | x :: xs, h => by
    obtain ⟨y, hy⟩ := h x (by simp)
    obtain ⟨ys, hys⟩ := mapM_ok (xs := xs) (fun z hz => h z (by simp [hz]))
    exact ⟨y :: ys, by rw [List.mapM_cons, hy, hys]; rfl⟩

theorem declared_key {st : Store} {p : String} {ds : List Elem} (h : declared st p = some ds) : ∃ x ∈ st, x.1 = p := by
  induction st with
  | nil => cases h
  | cons x st ih =>
    obtain ⟨k, es⟩ := x
    simp only [declared] at h
    split at h
    · rename_i hk; exact ⟨(k, es), by simp, hk⟩
    · obtain ⟨y, hy, hp⟩ := ih h
      exact ⟨y, by simp [hy], hp⟩

theorem construct_ok {st : Store} {n : Nat} : ∀ {calls : Nat} {p : String},
    (∀ x ∈ st, x.1.length < p.length + n) → ∃ es, construct st n calls p = .ok es := by
  induction n with
  | zero =>
    intro calls p h
    unfold construct
    split
    · exact ⟨_, rfl⟩
    · rename_i ds hd
      obtain ⟨x, hx, rfl⟩ := declared_key hd
      have := h x hx
      omega
  | succ n ih =>
    intro calls p h
    unfold construct
    split
    · exact ⟨_, rfl⟩
    · rename_i ds hd
      apply mapM_ok
      intro d hm
      clear hm
      split
      · rename_i name es
        obtain ⟨sub, hs⟩ := ih (calls := calls * copies name ds) (p := p ++ "." ++ name) (fun x hx => by
          have := h x hx
          have h1 : (p ++ "." ++ name).length = p.length + 1 + name.length := by simp [String.length_append]; rfl
          omega)
        exact ⟨_, by rw [hs]; rfl⟩
      · exact ⟨_, rfl⟩

theorem length_le_sum {α : Type} {f : α → Nat} {xs : List α} {x : α} (h : x ∈ xs) : f x ≤ (xs.map f).sum := by
  induction xs with
  | nil => cases h
  | cons y xs ih =>
    rcases List.mem_cons.mp h with rfl | h
    · simp
    · have := ih h
      simp
      omega

end Recap.Protobuf
