import Verif.Shown

/-! # Tables of relational databases in Recap's own format: helper lemmas for C115 -/

set_option autoImplicit false

namespace Recap.Relational

open RType Spec

theorem leafy_plain {t : RType} (h1 : children t = []) (h2 : t.isProxy = false) (h3 : ∀ ts a, t ≠ .union ts a)
    (h4 : t.attrs = {}) (h5 : ∀ kv ∈ Spec.params t, Real kv.2) : Leafy t := by
  refine ⟨h1, h2, h3, ?_, ?_, ?_, ?_, ?_, ?_, h5⟩ <;> rw [h4] <;> simp [Dict.keys, Real]

theorem leafy_time (b : Int) (l u : String) : Leafy (timeType b l u) := by
  refine ⟨rfl, rfl, fun _ _ h => (nomatch h), rfl, rfl, trivial, ?_, ?_, ?_, ?_⟩ <;>
    simp [timeType, RType.attrs, Dict.keys, Real, Spec.params]

theorem leafy_decimal (b : Int) {p s : PyVal} (hp : Real p) (hs : Real s) : Leafy (decimalType b p s) := by
  refine ⟨rfl, rfl, fun _ _ h => (nomatch h), rfl, rfl, trivial, ?_, ?_, ?_, ?_⟩ <;>
    simp [decimalType, RType.attrs, Dict.keys, Real, Spec.params, hp, hs]

/-- For types without attributes. -/
macro "plainly" : tactic => `(tactic| (
  refine leafy_plain rfl rfl (by intro _ _ h; cases h) rfl ?_
  simp [Spec.params, Real] <;> assumption))

theorem real_item {c : Dict} (h : Real (.dict c)) {k : String} {v : PyVal} (hi : item c k = .ok v) : Real v :=
  RealDict.get? h (item_ok hi)

theorem real_orElse {v d : PyVal} (hv : Real v) (hd : Real d) : Real (orElse v d) := by
  unfold orElse; split <;> assumption

theorem mysqlType_leafy (dt : String) {o p s : PyVal} (ho : Real o) (hp : Real p) (hs : Real s) (col : Dict) :
    Yields Leafy (mysqlType dt o p s col) := by
  unfold mysqlType
  branches
  all_goals first
    | plainly
    | exact leafy_time _ _ _
    | exact leafy_decimal _ hp hs

theorem snowflakeType_leafy (dt : String) {o : PyVal} (ho : Real o) {col : Dict} (hc : Real (.dict col)) :
    Yields Leafy (snowflakeType dt o col) := by
  have ro : ∀ n : Int, Real (orElse o (.int n)) := fun n => real_orElse ho trivial
  unfold snowflakeType
  branches
  all_goals first
    | plainly
    | exact leafy_time _ _ _
    | (rename_i h1 _ h2; exact leafy_decimal _ (real_orElse (real_item hc h1) trivial) (real_orElse (real_item hc h2) trivial))
    | (refine leafy_plain rfl rfl (by intro _ _ h; cases h) rfl ?_
       simp [Spec.params, Real, ro])

theorem ceilDiv8_real {m b : PyVal} (h : ceilDiv8 m = .ok b) : Real b := by
  cases m <;> simp only [ceilDiv8, reduceCtorEq] at h
  · cases h; trivial
  · split at h <;> cases h; trivial
  · cases h; trivial

theorem pgScalar_leafy (dt : String) {o : PyVal} (m : PyVal) (ho : Real o) {col : Dict} (hc : Real (.dict col)) :
    Yields Leafy (pgScalar dt o m col) := by
  unfold pgScalar
  branches
  all_goals first
    | plainly
    | exact leafy_time _ _ _
    | (rename_i h1 _ h2; exact leafy_decimal _ (real_item hc h1) (real_item hc h2))
    | (have := ceilDiv8_real (by assumption); plainly)
    | (have := real_item hc (by assumption); plainly)
    | (refine ⟨rfl, rfl, fun _ _ h => (nomatch h), rfl, rfl, trivial, ?_, ?_, ?_, ?_⟩ <;>
        simp [RType.attrs, Dict.keys, Real, Spec.params])

theorem real_pgElement (e : String) : Real (.dict (pgElement e)) := by
  simp [pgElement, Real, RealPairs]

/-- What the dialects make of a column, without arrays of any dimension. -/
inductive BaseShape : RType → Prop
  | leafy {b} : Leafy b → Simple b → BaseShape b
  | numeric : BaseShape (.union [.null {}, .int (.int 64) (.bool true) {}, .float (.int 64) {},
      .string sqliteMax (.bool true) {}, .bytes sqliteMax (.bool true) {}] {})
  | array {v} (k : Nat) : Leafy v → Simple v → BaseShape (nDimList v k)

theorem parse_shape {cm : CaseMap} {d : Dialect} {c : Dict} {s s' : Registry} {b : RType}
    (hc : Real (.dict c)) (hd : ∀ cfg, d = .postgresql cfg → cfg.enforce = false → ¬ DataType cm c "array")
    (h : d.parse cm c s = (.ok b, s')) : BaseShape b := by
  cases d with
  | mysql =>
    simp only [Dialect.parse, stateless, Prod.mk.injEq] at h
    have h := h.1
    refine .leafy ?_ (mysqlParse_simple _ _ _ h)
    unfold mysqlParse at h
    obtain ⟨v, h1, h⟩ := bind_ok h
    obtain ⟨dt, h2, h⟩ := bind_ok h
    obtain ⟨octet, h3, h⟩ := bind_ok h
    obtain ⟨precision, h4, h⟩ := bind_ok h
    obtain ⟨scale, h5, h⟩ := bind_ok h
    exact mysqlType_leafy _ (real_item hc h3) (real_item hc h4) (real_item hc h5) _ _ h
  | snowflake =>
    simp only [Dialect.parse, stateless, Prod.mk.injEq] at h
    have h := h.1
    refine .leafy ?_ (snowflakeParse_simple _ _ _ h)
    unfold snowflakeParse at h
    obtain ⟨v, h1, h⟩ := bind_ok h
    obtain ⟨dt, h2, h⟩ := bind_ok h
    obtain ⟨octet, h3, h⟩ := bind_ok h
    exact snowflakeType_leafy _ (real_item hc h3) hc _ h
  | sqlite =>
    simp only [Dialect.parse, stateless, Prod.mk.injEq] at h
    obtain ⟨v, r, af, octet, precision, -, -, -, ho, -, ht⟩ := sqliteParse_ok h.1
    have ro : Real (orElse octet sqliteMax) := real_orElse (RealDict.get? hc ho) trivial
    have simple : ∀ {t : RType}, t.attrs = {} → children t = [] → t.isNullable = false →
        (∀ ts a, t ≠ .union ts a) → Simple t :=
      fun h1 h2 h3 h4 => ⟨⟨by rw [h1], by rw [h1]; rfl, by rw [h1]; rfl⟩, by rw [h1], h3, h2, h4⟩
    cases af
    · subst ht; exact .leafy (by plainly) (simple rfl rfl rfl (fun _ _ h => nomatch h))
    · rcases ht with ⟨-, -, rfl⟩ | ⟨-, rfl⟩ <;>
        exact .leafy (by plainly) (simple rfl rfl rfl (fun _ _ h => nomatch h))
    · subst ht; exact .leafy (by plainly) (simple rfl rfl rfl (fun _ _ h => nomatch h))
    · subst ht; exact .leafy (by plainly) (simple rfl rfl rfl (fun _ _ h => nomatch h))
    · subst ht; exact .numeric
  | postgresql cfg =>
    obtain ⟨p, hp, hcase⟩ := pgParse_ok h
    obtain ⟨-, hdt, ho, hmx, -, -⟩ := pgProps_ok hp
    rcases hcase with ⟨-, -, h⟩ | ⟨e, v, -, hv, hcase⟩
    · exact .leafy (pgScalar_leafy _ _ (RealDict.get? hc ho) hc _ h) (pgScalar_simple _ _ _ _ _ h)
    · rcases hcase with ⟨-, -, h⟩ | ⟨he, -⟩
      · obtain ⟨k, rfl, -⟩ := createNDim_ok h
        exact .array k (pgScalar_leafy _ _ (by trivial) (real_pgElement _) _ hv) (pgScalar_simple _ _ _ _ _ hv)
      · rw [e] at hdt
        exact absurd hdt (hd cfg rfl he)

theorem shown_nDim {v : RType} (hv : Leafy v) (hs : Simple v) : ∀ k, Shown (nDimList v k)
  | 0 => shown_union .none (fun t ht => by rw [List.mem_singleton.mp ht]; exact hv.shown)
      (fun t ht => by
        rw [List.mem_singleton.mp ht]
        have := hs.nonNull
        cases v <;> simp [RType.isNullable] at this <;> simp [RType.typeName])
      (fun u hu => by
        cases hu
        refine ⟨?_, Dict.get?_eq_none_iff.mp hs.name, Dict.get?_eq_none_iff.mp hs.default⟩
        cases v <;> first | exact absurd rfl (hv.union _ _) | simp [RType.typeName])
  | k + 1 => shown_iff.mpr ⟨piece_of rfl rfl trivial trivial .nil (by simp [RType.attrs, nDimList, Dict.keys])
      (by simp [nDimList, RType.attrs]) (by simp [nDimList, Spec.params, Real]) (fun _ _ h => nomatch h),
      by simp only [nDimList, children, List.mem_singleton, forall_eq]; exact shown_nDim hv hs k⟩

theorem tame_nDim {v : RType} (hv : Leafy v) (hs : Simple v) (k : Nat) : Tame (nDimList v (k + 1)) :=
  ⟨rfl, fun _ _ h => (nomatch h), rfl, trivial, trivial, .nil, by simp [RType.attrs, nDimList, Dict.keys],
    by simp [nDimList, RType.attrs], by simp [nDimList, Spec.params, Real],
    by simp only [nDimList, children, List.mem_singleton, forall_eq]; exact shown_nDim hv hs k⟩

/-- The field for a union without attributes that has a null member. -/
theorem fieldOf_bare_union {cm : CaseMap} {col : Dict} {ts : List RType} {f : RType} (hc : Real (.dict col))
    (hname : Dict.get? col "COLUMN_NAME" ≠ some .none)
    (hn : ts.any isNull = true) (h : fieldOf cm col (.union ts {}) = .ok f) :
    ∃ x, FieldExtra x ∧ f = .union ts { extra := x } := by
  obtain ⟨n, dflt, name, -, hd, hm, rfl⟩ := fieldOf_ok h
  have rd := RealDict.get? hc hd
  have rn := RealDict.get? hc hm
  have hne : name ≠ .none := by rintro rfl; exact hname hm
  have hm : makeNullable (.union ts {}) = .union ts { extra := [("default", .none)] } := by
    simp only [makeNullable, addNull, hn, if_true]
    rfl
  by_cases hy : (cm.upper n == "YES") = true
  · rw [if_pos hy, hm, if_pos (by rw [hy]; simp)]
    exact ⟨_, .both rd rn hne, rfl⟩
  · rw [if_neg hy]
    split
    · exact ⟨_, .both rd rn hne, rfl⟩
    · exact ⟨_, .name rn hne, rfl⟩

theorem field_shown {cm : CaseMap} {c : Dict} {b f : RType} (hc : Real (.dict c))
    (hname : Dict.get? c "COLUMN_NAME" ≠ some .none) (hb : BaseShape b) (h : fieldOf cm c b = .ok f) : Shown f := by
  have tame : ∀ {b : RType}, Tame b → Bare b → b.isNullable = false → fieldOf cm c b = .ok f → Shown f := by
    intro b ht hb hn h
    obtain ⟨n, dflt, name, -, hd, hm, rfl⟩ := fieldOf_ok h
    have rd := RealDict.get? hc hd
    have rn := RealDict.get? hc hm
    have hne : name ≠ .none := by rintro rfl; exact hname hm
    by_cases hy : (cm.upper n == "YES") = true
    · rw [if_pos hy, if_pos (by rw [hy]; simp), makeNullable_bare hb hn ht.union]
      refine shown_union (.both rd rn hne) (fun t ht' => by rw [List.mem_singleton.mp ht']; exact ht.shown) ?_ ?_
      · intro t ht'
        rw [List.mem_singleton.mp ht']
        cases b <;> simp [RType.isNullable] at hn <;> simp [RType.typeName]
      · intro u hu
        cases hu
        refine ⟨?_, Dict.get?_eq_none_iff.mp hb.name, Dict.get?_eq_none_iff.mp hb.default⟩
        have := ht.union
        cases b <;> first | exact absurd rfl (this _ _) | simp [RType.typeName]
    · rw [if_neg hy]
      split
      · exact ((ht.set (.inl rfl) rd).set (.inr rfl) rn).shown
      · exact (ht.set (.inr rfl) rn).shown
  cases hb with
  | leafy h1 h2 => exact tame h1.tame h2.toBare h2.nonNull h
  | numeric =>
    obtain ⟨x, hx, rfl⟩ := fieldOf_bare_union hc hname rfl h
    refine shown_union hx ?_ (by simp [RType.typeName]) (by simp)
    simp only [List.mem_cons, List.not_mem_nil, or_false, forall_eq_or_imp, forall_eq, sqliteMax]
    exact ⟨Leafy.shown (by plainly), Leafy.shown (by plainly), Leafy.shown (by plainly), Leafy.shown (by plainly)⟩
  | @array v k h1 h2 =>
    cases k with
    | zero =>
      obtain ⟨x, hx, rfl⟩ := fieldOf_bare_union hc hname rfl h
      refine shown_union hx (fun t ht => by rw [List.mem_singleton.mp ht]; exact h1.shown) ?_ ?_
      · intro t ht
        rw [List.mem_singleton.mp ht]
        have := h2.nonNull
        cases v <;> simp [RType.isNullable] at this <;> simp [RType.typeName]
      · intro u hu
        cases hu
        refine ⟨?_, Dict.get?_eq_none_iff.mp h2.name, Dict.get?_eq_none_iff.mp h2.default⟩
        cases v <;> first | exact absurd rfl (h1.union _ _) | simp [RType.typeName]
    | succ k => exact tame (tame_nDim h1 h2 k) (bare_nDim v (k + 1)) rfl h

theorem shown_struct {fs : List RType} (h : ∀ f ∈ fs, Shown f) : Shown (.struct fs {}) :=
  shown_iff.mpr ⟨piece_of rfl rfl trivial trivial .nil (by simp [RType.attrs, Dict.keys])
      (by simp [RType.attrs]) (by simp [Spec.params]) (fun _ _ h => nomatch h), h⟩

end Recap.Relational
