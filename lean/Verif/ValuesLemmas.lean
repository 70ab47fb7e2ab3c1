import Verif.ValuesSpec
import Verif.RelationalThms

/-!
# Helpers for C126
-/

set_option autoImplicit false

namespace Recap.Values

open Relational Recap.Spec RType
open Avro.Spec (IntValue)

/-! ## Attributes -/

/-- The attributes that matter for the values of a type are the same. -/
structure Same (a b : Attrs) : Prop where
  logical : a.logical = b.logical
  unit : Dict.get? a.extra "unit" = Dict.get? b.extra "unit"
  precision : Dict.get? a.extra "precision" = Dict.get? b.extra "precision"
  scale : Dict.get? a.extra "scale" = Dict.get? b.extra "scale"

theorem Same.refl (a : Attrs) : Same a a := ⟨rfl, rfl, rfl, rfl⟩

theorem holds_withAttrs {t : RType} {v : Val} (h : Holds t v) {b : Attrs} (hs : Same b t.attrs) :
    Holds (t.withAttrs b) v := by
  obtain ⟨h1, h2, h3, h4⟩ := hs
  cases h with
  | null => exact .null
  | bool => exact .bool
  | int hl hi => exact .int (h1.trans hl) hi
  | float h => exact .float h
  | string hl h => exact .string (h1.trans hl) h
  | uuid hl h h' => exact .uuid (h1.trans hl) h h'
  | bytes hl h => exact .bytes (h1.trans hl) h
  | decimal hl hp hq hu hd hi => exact .decimal (h1.trans hl) (h3.trans hp) (h4.trans hq) hu hd hi
  | instant hl hu hp hi => exact .instant (h1.trans hl) (h2.trans hu) hp hi
  | date hl hu hi => exact .date (h1.trans hl) (h2.trans hu) hi
  | time hl hu hp hi => exact .time (h1.trans hl) (h2.trans hu) hp hi
  | enum h => exact .enum h
  | list h => exact .list h
  | map hk hv => exact .map hk hv
  | struct hl h => exact .struct hl h
  | union hm h => exact .union hm h

theorem same_set {a : Attrs} {k : String} {v : PyVal} (h1 : k ≠ "unit") (h2 : k ≠ "precision") (h3 : k ≠ "scale") :
    Same { a with extra := Dict.set a.extra k v } a :=
  ⟨rfl, Dict.get?_set_ne _ _ h1, Dict.get?_set_ne _ _ h2, Dict.get?_set_ne _ _ h3⟩

theorem holds_default {t : RType} {v : Val} (h : Holds t v) (x : PyVal) : Holds (Relational.setExtra t "default" x) v :=
  holds_withAttrs h (same_set (by decide) (by decide) (by decide))

theorem holds_name {t : RType} {v : Val} (h : Holds t v) (x : PyVal) : Holds (Relational.setExtra t "name" x) v :=
  holds_withAttrs h (same_set (by decide) (by decide) (by decide))

theorem demoted_get {d : Dict} {k : String} (h1 : k ≠ "default") (h2 : k ≠ "name") :
    Dict.get? (demoted d) k = Dict.get? d k := by
  rw [demoted, Dict.get?_erase_ne _ h2.symm, Dict.get?_erase_ne _ h1.symm]

theorem mem_addNull {ts : List RType} {t : RType} (h : t ∈ ts) : t ∈ addNull ts := by
  unfold addNull
  split
  · exact h
  · exact List.mem_cons_of_mem _ h

theorem holds_makeNullable {t : RType} {v : Val} (h : Holds t v) : Holds (makeNullable t) v := by
  have hw : Holds (t.withAttrs { t.attrs with doc := .none, extra := demoted t.attrs.extra }) v :=
    holds_withAttrs h ⟨rfl, demoted_get (by decide) (by decide), demoted_get (by decide) (by decide),
      demoted_get (by decide) (by decide)⟩
  unfold makeNullable
  split
  · cases h with
    | union hm h => exact .union (mem_addNull hm) h
  · exact .union (mem_addNull (List.mem_singleton_self _)) hw

theorem null_addNull (ts : List RType) : ∃ t ∈ addNull ts, Holds t .null := by
  unfold addNull
  split
  · rename_i h
    obtain ⟨t, ht, hn⟩ := List.any_eq_true.mp h
    refine ⟨t, ht, ?_⟩
    cases t <;> first | exact .null | cases hn
  · exact ⟨_, List.mem_cons_self, .null⟩

theorem holds_null_makeNullable (t : RType) : Holds (makeNullable t) .null := by
  have key : ∀ ts a, Holds (.union (addNull ts) a) .null := by
    intro ts a
    obtain ⟨t, ht, h⟩ := null_addNull ts
    exact .union ht h
  unfold makeNullable
  split <;> exact key _ _

/-- The field of a column holds what the type of the column holds, and null if it is nullable. -/
theorem fieldOf_holds {cm : CaseMap} {c : Dict} {base f : RType} {v : Val} (h : Relational.fieldOf cm c base = .ok f)
    (hv : (v = .null ∧ DeclaredNullable cm c) ∨ Holds base v) : Holds f v := by
  obtain ⟨n, d, name, hn, -, -, rfl⟩ := fieldOf_ok h
  have key : Holds (if (cm.upper n == "YES") = true then makeNullable base else base) v := by
    split
    · rcases hv with ⟨rfl, -⟩ | hv
      · exact holds_null_makeNullable _
      · exact holds_makeNullable hv
    · rename_i hne
      rcases hv with ⟨-, s, hs, hu⟩ | hv
      · rw [hn] at hs
        cases hs
        exact absurd (by rw [hu]; rfl) hne
      · exact hv
  refine holds_name ?_ _
  split
  · exact holds_default key _
  · exact key

/-! ## Numbers -/

theorem pow_mono {p k : Nat} (h : p ≤ k) : (10 : Nat) ^ p ≤ 10 ^ k := Nat.pow_le_pow_right (by decide) h

theorem intValue_of_natAbs {n : Nat} {u : Int} {b : Nat} (hb : b ≤ 2 ^ (n - 1)) (h : u.natAbs < b) : IntValue n true u := by
  have h2 : ((2 ^ (n - 1) : Nat) : Int) = (2 : Int) ^ (n - 1) := by
    simp only [Int.natCast_pow, Int.cast_ofNat_Int]
  simp only [IntValue, if_true, ← h2]
  omega

theorem intValue_64 {i : Int} : IntValue (64 : Int).toNat true i ↔ -9223372036854775808 ≤ i ∧ i ≤ 9223372036854775807 := by
  have : (2 : Int) ^ ((64 : Int).toNat - 1) = 9223372036854775808 := by decide +kernel
  simp only [IntValue, if_true, this]
  omega

theorem intValue_32 {i : Int} : IntValue (32 : Int).toNat true i ↔ -2147483648 ≤ i ∧ i ≤ 2147483647 := by
  have : (2 : Int) ^ ((32 : Int).toNat - 1) = 2147483648 := by decide +kernel
  simp only [IntValue, if_true, this]
  omega

/-- A decimal with `p` digits in a type of `k` bytes with the same scale. -/
theorem holds_decimal {k : Int} {v : PyVal} {a : Attrs} {p q : Nat} {m : Int} (hl : a.logical = .str "build.recap.Decimal")
    (hp : Dict.get? a.extra "precision" = some (.int p)) (hq : Dict.get? a.extra "scale" = some (.int q))
    (hm : m.natAbs < 10 ^ p) (hk : 10 ^ p ≤ 2 ^ ((8 * k).toNat - 1)) : Holds (.bytes (.int k) v a) (.decimal m q) :=
  .decimal (u := m) hl hp hq rfl hm (intValue_of_natAbs hk hm)

/-! ## Times -/

/-- The unit that the converters choose for `p` decimal places. -/
theorem getTimeUnit_decimals (p : Nat) (h : p ≤ 6) :
    ∃ u per, getTimeUnit (some [.int p]) = .ok (some u) ∧ nanoseconds u = some per ∧ (per = 1000000000 ∨ per = 1000000 ∨ per = 1000) ∧
      ∃ e : Int, 10 ^ (9 - p) = e * per := by
  rcases p with _ | _ | _ | _ | _ | _ | _ | p
  · exact ⟨"second", 1000000000, rfl, rfl, .inl rfl, 1, by decide⟩
  · exact ⟨"millisecond", 1000000, rfl, rfl, .inr (.inl rfl), 100, by decide⟩
  · exact ⟨"millisecond", 1000000, rfl, rfl, .inr (.inl rfl), 10, by decide⟩
  · exact ⟨"millisecond", 1000000, rfl, rfl, .inr (.inl rfl), 1, by decide⟩
  · exact ⟨"microsecond", 1000, rfl, rfl, .inr (.inr rfl), 100, by decide⟩
  · exact ⟨"microsecond", 1000, rfl, rfl, .inr (.inr rfl), 10, by decide⟩
  · exact ⟨"microsecond", 1000, rfl, rfl, .inr (.inr rfl), 1, by decide⟩
  · omega

/-- A point in time with `p` decimal places is held by a 64-bit integer of the unit for `p`. -/
theorem holds_instant {p : Nat} {ns : Int} {u : Option String} {d : String} (hp : p ≤ 6) (hd : Decimals p ns)
    (hu : getTimeUnit (some [.int p]) = .ok u) (h1 : -9223372036854775808000 ≤ ns) (h2 : ns ≤ 9223372036854775807000) :
    Holds (timeType 64 "build.recap.Timestamp" (u.getD d)) (.instant ns) := by
  obtain ⟨k, rfl⟩ := hd
  obtain ⟨u', per, h3, h4, h5, e, h6⟩ := getTimeUnit_decimals p hp
  rw [h3] at hu
  cases hu
  have h7 : k * 10 ^ (9 - p) = k * e * per := by rw [h6, Int.mul_assoc]
  rw [h7] at h1 h2 ⊢
  refine .instant rfl rfl h4 (intValue_64.mpr ?_)
  rcases h5 with rfl | rfl | rfl <;> omega

theorem instant_inv {n : Int} {s : PyVal} {a : Attrs} {ns : Int} (h : Holds (.int (.int n) s a) (.instant ns)) :
    ∃ u per k, Dict.get? a.extra "unit" = some (.str u) ∧ nanoseconds u = some per ∧ IntValue n.toNat true k ∧
      ns = k * per := by
  cases h with
  | instant _ hu hp hi => exact ⟨_, _, _, hu, hp, hi, rfl⟩

theorem decimal_inv {n : Int} {w : PyVal} {a : Attrs} {m : Int} {s : Nat} (h : Holds (.bytes (.int n) w a) (.decimal m s)) :
    ∃ (p q : Nat) (u : Int), Dict.get? a.extra "precision" = some (.int p) ∧ Dict.get? a.extra "scale" = some (.int q) ∧
      u * 10 ^ s = m * 10 ^ q ∧ u.natAbs < 10 ^ p := by
  cases h with
  | decimal _ hp hq hu hd _ => exact ⟨_, _, _, hp, hq, hu, hd⟩

/-! ## MySQL -/

theorem mysqlInts_type {dt : String} {n : Nat} (h : (dt, n) ∈ mysqlInts) (o p s : PyVal) (c : Dict) :
    mysqlType dt o p s c = .ok (.int (.int n) (.bool true) {}) := by
  simp only [mysqlInts, List.mem_cons, List.not_mem_nil, or_false, Prod.mk.injEq] at h
  rcases h with ⟨rfl, rfl⟩ | ⟨rfl, rfl⟩ | ⟨rfl, rfl⟩ | ⟨rfl, rfl⟩ | ⟨rfl, rfl⟩ <;> rfl

theorem mysql_holds {cm : CaseMap} {c : Dict} {base : RType} {v : Val} (h : mysqlParse cm c = .ok base)
    (hu : ∀ i, v = .int i → ¬Unsigned c) (hv : MySQL cm c v) : (v = .null ∧ DeclaredNullable cm c) ∨ Holds base v := by
  unfold mysqlParse at h
  obtain ⟨_, h1, h⟩ := bind_ok h
  obtain ⟨_, h2, h⟩ := bind_ok h
  obtain ⟨o, h3, h⟩ := bind_ok h
  obtain ⟨p, h4, h⟩ := bind_ok h
  obtain ⟨s, h5, h⟩ := bind_ok h
  obtain ⟨r, rfl, rfl⟩ := strMethod_ok h2
  have hdt : DataType cm c (cm.lower r) := ⟨r, item_ok h1, rfl⟩
  replace h3 := item_ok h3
  replace h4 := item_ok h4
  replace h5 := item_ok h5
  generalize cm.lower r = dt at h hdt
  cases hv with
  | null hn => exact .inl ⟨rfl, hn⟩
  | signed hd hm _ hi =>
    cases dataType_unique hdt hd
    rw [mysqlInts_type hm] at h
    cases h
    exact .inr (.int rfl hi)
  | unsigned _ _ hn _ => exact absurd hn (hu _ rfl)
  | double hd =>
    cases dataType_unique hdt hd
    cases h
    exact .inr (.float (Int.le_refl _))
  | float hd =>
    cases dataType_unique hdt hd
    obtain ⟨g, -, rfl⟩ := map_ok (show (p.gtInt 23).map (fun g => RType.float (.int (if g then 64 else 32)) {}) = .ok base from h)
    exact .inr (.float (by cases g <;> decide))
  | text hd hm hn hs =>
    cases dataType_unique hdt hd
    cases h3.symm.trans hn
    simp only [List.mem_cons, List.not_mem_nil, or_false] at hm
    rcases hm with rfl | rfl | rfl | rfl | rfl | rfl | rfl | rfl <;> cases h <;>
      exact .inr (.string rfl (.inr ⟨_, rfl, hs⟩))
  | json hd hn =>
    cases dataType_unique hdt hd
    cases h3.symm.trans hn
    cases h
    exact .inr (.string rfl (.inl rfl))
  | binary hd hm hn hs =>
    cases dataType_unique hdt hd
    cases h3.symm.trans hn
    simp only [List.mem_cons, List.not_mem_nil, or_false] at hm
    rcases hm with rfl | rfl | rfl | rfl | rfl | rfl <;> cases h <;>
      exact .inr (.bytes rfl (.inr ⟨_, rfl, hs⟩))
  | bit hd hk =>
    cases dataType_unique hdt hd
    cases h
    exact .inr (.bytes rfl (.inr ⟨_, rfl, by omega⟩))
  | @instant dt' p' ns hd hm hp hp6 hdec hce =>
    cases dataType_unique hdt hd
    have h' : (do
        let p ← item c "DATETIME_PRECISION"
        let u ← getTimeUnit (some [p])
        pure (timeType 64 "build.recap.Timestamp" (u.getD "microsecond"))) = Except.ok base := by
      simp only [List.mem_cons, List.not_mem_nil, or_false] at hm
      rcases hm with rfl | rfl <;> exact h
    obtain ⟨q, hq, h'⟩ := bind_ok h'
    obtain ⟨u, hu', h'⟩ := bind_ok h'
    cases h'
    cases (item_ok hq).symm.trans hp
    exact .inr (holds_instant hp6 hdec hu' (by have := hce.1; omega) (by have := hce.2; omega))
  | @decimal p' q' m hd hp hq h65 hm =>
    cases dataType_unique hdt hd
    cases h4.symm.trans hp
    cases h5.symm.trans hq
    cases h
    exact .inr (holds_decimal rfl rfl rfl hm (Nat.le_trans (pow_mono h65) (by decide +kernel)))
  | year hd hi =>
    cases dataType_unique hdt hd
    cases h
    refine .inr (.int rfl ?_)
    have : (2 : Int) ^ (16 : Int).toNat = 65536 := by decide +kernel
    simp only [IntValue, this]
    simp only [Bool.false_eq_true, if_false]
    omega

/-! ## PostgreSQL -/

/-- What keeps a value of PostgreSQL within its type: the point in time fits into 64 bits of
microseconds, and the number of digits is declared and at most 76. -/
structure PostgreSQLFits (c : Dict) (v : Val) : Prop where
  instant : ∀ ns, v = .instant ns → ns ≤ 9223372036854775807000
  decimal : ∀ m s, v = .decimal m s → ∃ p : Nat, Dict.get? c "NUMERIC_PRECISION" = some (.int p) ∧ p ≤ 76

theorem pgInts_type {dt : String} {n : Nat} (h : (dt, n) ∈ pgInts) (o m : PyVal) (c : Dict) :
    dt ≠ "array" ∧ pgScalar dt o m c = .ok (.int (.int n) (.bool true) {}) := by
  simp only [pgInts, List.mem_cons, List.not_mem_nil, or_false, Prod.mk.injEq] at h
  rcases h with ⟨rfl, rfl⟩ | ⟨rfl, rfl⟩ | ⟨rfl, rfl⟩ <;> exact ⟨by decide, rfl⟩

theorem pg_scalar {cm : CaseMap} {cfg : PgConfig} {c : Dict} {reg reg' : Registry} {base : RType} {dt : String}
    (h : pgParse cm cfg c reg = (.ok base, reg')) (hd : DataType cm c dt) (hne : dt ≠ "array") :
    ∃ o m, Dict.get? c "CHARACTER_OCTET_LENGTH" = some o ∧ Dict.get? c "CHARACTER_MAXIMUM_LENGTH" = some m ∧
      pgScalar dt o m c = .ok base := by
  obtain ⟨p, hp, h⟩ := pgParse_ok h
  obtain ⟨-, h2, h3, h4, -, -⟩ := pgProps_ok hp
  cases dataType_unique h2 hd
  rcases h with ⟨-, -, h⟩ | ⟨h, -⟩
  · exact ⟨_, _, h3, h4, h⟩
  · exact absurd h hne

theorem pg_holds {cm : CaseMap} {cfg : PgConfig} {c : Dict} {reg reg' : Registry} {base : RType} {v : Val}
    (h : pgParse cm cfg c reg = (.ok base, reg')) (hf : PostgreSQLFits c v) (hv : PostgreSQL cm c v) :
    (v = .null ∧ DeclaredNullable cm c) ∨ Holds base v := by
  cases hv with
  | null hn => exact .inl ⟨rfl, hn⟩
  | int hd hm hi =>
    obtain ⟨o, m, ho, hmx, h⟩ := pg_scalar h hd (pgInts_type hm .none .none []).1
    rw [(pgInts_type hm _ _ _).2] at h
    cases h
    exact .inr (.int rfl hi)
  | double hd =>
    obtain ⟨o, m, ho, hmx, h⟩ := pg_scalar h hd (by decide)
    cases h
    exact .inr (.float (Int.le_refl _))
  | real hd =>
    obtain ⟨o, m, ho, hmx, h⟩ := pg_scalar h hd (by decide)
    cases h
    exact .inr (.float (Int.le_refl _))
  | bool hd =>
    obtain ⟨o, m, ho, hmx, h⟩ := pg_scalar h hd (by decide)
    cases h
    exact .inr .bool
  | text hd hm hn hs =>
    simp only [List.mem_cons, List.not_mem_nil, or_false] at hm
    rcases hm with rfl | rfl | rfl <;>
    · obtain ⟨o, m, ho, hmx, h⟩ := pg_scalar h hd (by decide)
      cases ho.symm.trans hn
      cases h
      exact .inr (.string rfl (.inr ⟨_, rfl, hs⟩))
  | json hd hm hn =>
    simp only [List.mem_cons, List.not_mem_nil, or_false] at hm
    rcases hm with rfl | rfl <;>
    · obtain ⟨o, m, ho, hmx, h⟩ := pg_scalar h hd (by decide)
      cases ho.symm.trans hn
      cases h
      exact .inr (.string rfl (.inl rfl))
  | uuid hd hs =>
    obtain ⟨o, m, ho, hmx, h⟩ := pg_scalar h hd (by decide)
    cases h
    exact .inr (.uuid rfl (by omega) (.inr ⟨_, rfl, by omega⟩))
  | bytea hd hs =>
    obtain ⟨o, m, ho, hmx, h⟩ := pg_scalar h hd (by decide)
    cases h
    exact .inr (.bytes rfl (.inr ⟨_, rfl, by simp only [pgMax]; omega⟩))
  | varbit hd hs =>
    obtain ⟨o, m, ho, hmx, h⟩ := pg_scalar h hd (by decide)
    cases h
    exact .inr (.bytes rfl (.inr ⟨_, rfl, by simp only [pgMax]; omega⟩))
  | @bit m' n hd hl hmax hn =>
    obtain ⟨o, m, ho, hmx, h⟩ := pg_scalar h hd (by decide)
    cases hmx.symm.trans hl
    obtain ⟨b, hb, rfl⟩ := map_ok (show (ceilDiv8 (.int m')).map (fun b => RType.bytes b (.bool false) {}) = .ok base from h)
    simp only [ceilDiv8] at hb
    split at hb
    · cases hb
      exact .inr (.bytes rfl (.inr ⟨_, rfl, by omega⟩))
    · cases hb
  | @instant dt' p' ns hd hm hp hp6 hdec h1 h2 =>
    have h' : (do
        let p ← item c "DATETIME_PRECISION"
        let u ← getTimeUnit (some [p])
        pure (timeType 64 "build.recap.Timestamp" (u.getD "microsecond"))) = Except.ok base := by
      simp only [List.mem_cons, List.not_mem_nil, or_false] at hm
      rcases hm with rfl | rfl <;>
      · obtain ⟨o, m, ho, hmx, h⟩ := pg_scalar h hd (by decide)
        exact h
    obtain ⟨q, hq, h'⟩ := bind_ok h'
    obtain ⟨u, hu', h'⟩ := bind_ok h'
    cases h'
    cases (item_ok hq).symm.trans hp
    exact .inr (holds_instant hp6 hdec hu' (by omega) (hf.instant _ rfl))
  | @numeric p' q' m' hd hp hq _ hm =>
    obtain ⟨o, m, ho, hmx, h⟩ := pg_scalar h hd (by decide)
    obtain ⟨p, h3, h⟩ := bind_ok (show (do
      let precision ← item c "NUMERIC_PRECISION"
      let scale ← item c "NUMERIC_SCALE"
      pure (decimalType 32 precision scale)) = Except.ok base from h)
    obtain ⟨q, h4, h⟩ := bind_ok h
    cases h
    cases (item_ok h3).symm.trans hp
    cases (item_ok h4).symm.trans hq
    obtain ⟨p2, h5, h6⟩ := hf.decimal _ _ rfl
    have h7 : p' = p2 := by
      have := hp.symm.trans h5
      injection this with this
      injection this with this
      omega
    subst h7
    exact .inr (holds_decimal rfl rfl rfl hm (Nat.le_trans (pow_mono h6) (by decide +kernel)))
  | free _ hp _ _ =>
    obtain ⟨p2, h5, h6⟩ := hf.decimal _ _ rfl
    cases hp.symm.trans h5
  | @enum xs s hd hx hs =>
    obtain ⟨o, m, ho, hmx, h⟩ := pg_scalar h hd (by decide)
    obtain ⟨p, h3, h⟩ := bind_ok (show (do
      let symbols ← item c "ENUM_VALUES"
      if symbols.truthy then pure (.enum symbols {}) else .error .valueError) = Except.ok base from h)
    cases (item_ok h3).symm.trans hx
    split at h
    · cases h
      exact .inr (.enum hs)
    · cases h

/-! ## Snowflake -/

/-- What keeps a value of Snowflake within its type: the point in time fits into 64 bits of
nanoseconds, and the time of day into 32 bits. -/
structure SnowflakeFits (v : Val) : Prop where
  instant : ∀ ns, v = .instant ns → -9223372036854775808 ≤ ns ∧ ns ≤ 9223372036854775807
  time : ∀ ns, v = .time ns → ns ≤ 2147483647

theorem orElse_int {n d k : Int} (h : k ≤ n) (hd : 0 ≤ d) :
    ∃ m : Int, Relational.orElse (.int n) (.int d) = .int m ∧ k ≤ m := by
  unfold Relational.orElse
  split
  · exact ⟨n, rfl, h⟩
  · rename_i hn
    have : n = 0 := by
      by_cases h0 : n = 0
      · exact h0
      · exact absurd (by simpa [PyVal.truthy] using h0) hn
    exact ⟨d, rfl, by omega⟩

theorem snowflake_holds {cm : CaseMap} {c : Dict} {base : RType} {v : Val} (h : snowflakeParse cm c = .ok base)
    (hf : SnowflakeFits v) (hv : Snowflake cm c v) : (v = .null ∧ DeclaredNullable cm c) ∨ Holds base v := by
  unfold snowflakeParse at h
  obtain ⟨_, h1, h⟩ := bind_ok h
  obtain ⟨_, h2, h⟩ := bind_ok h
  obtain ⟨o, h3, h⟩ := bind_ok h
  obtain ⟨r, rfl, rfl⟩ := strMethod_ok h2
  have hdt : DataType cm c (cm.lower r) := ⟨r, item_ok h1, rfl⟩
  replace h3 := item_ok h3
  generalize cm.lower r = dt at h hdt
  cases hv with
  | null hn => exact .inl ⟨rfl, hn⟩
  | float hd =>
    cases dataType_unique hdt hd
    cases h
    exact .inr (.float (Int.le_refl _))
  | bool hd =>
    cases dataType_unique hdt hd
    cases h
    exact .inr .bool
  | @number p' q' m hd hp hq h1 h38 hm =>
    cases dataType_unique hdt hd
    obtain ⟨p, h4, h⟩ := bind_ok (show (do
      let precision ← item c "NUMERIC_PRECISION"
      let scale ← item c "NUMERIC_SCALE"
      pure (decimalType 16 (Relational.orElse precision (.int 38)) (Relational.orElse scale (.int 0)))) = Except.ok base from h)
    obtain ⟨q, h5, h⟩ := bind_ok h
    cases h
    cases (item_ok h4).symm.trans hp
    cases (item_ok h5).symm.trans hq
    have e1 : Relational.orElse (.int (p' : Int)) (.int 38) = .int p' := by
      unfold Relational.orElse
      rw [if_pos]
      have : p' ≠ 0 := by omega
      simpa [PyVal.truthy] using this
    have e2 : Relational.orElse (.int (q' : Int)) (.int 0) = .int q' := by
      unfold Relational.orElse
      split
      · rfl
      · rename_i hn
        cases q' with
        | zero => rfl
        | succ n => exact absurd (by simp [PyVal.truthy]; omega) hn
    rw [e1, e2]
    exact .inr (holds_decimal rfl rfl rfl hm (Nat.le_trans (pow_mono h38) (by decide +kernel)))
  | text hd hn hs =>
    cases dataType_unique hdt hd
    cases h3.symm.trans hn
    cases h
    obtain ⟨m, hm, hk⟩ := orElse_int (d := 16777216) hs (by decide)
    exact .inr (.string rfl (.inr ⟨m, hm, hk⟩))
  | binary hd hn hs =>
    cases dataType_unique hdt hd
    cases h3.symm.trans hn
    cases h
    obtain ⟨m, hm, hk⟩ := orElse_int (d := 8388608) hs (by decide)
    exact .inr (.bytes rfl (.inr ⟨m, hm, hk⟩))
  | date hd hc =>
    cases dataType_unique hdt hd
    cases h
    exact .inr (.date rfl rfl (intValue_32.mpr (by have := hc.1; have := hc.2; omega)))
  | @instant dt' ns hd hm hce =>
    cases dataType_unique hdt hd
    have key : Holds (timeType 64 "build.recap.Timestamp" "nanosecond") (.instant (ns * 1)) :=
      .instant rfl rfl rfl (intValue_64.mpr (hf.instant ns rfl))
    rw [Int.mul_one] at key
    simp only [List.mem_cons, List.not_mem_nil, or_false] at hm
    rcases hm with rfl | rfl | rfl <;> cases h <;> exact .inr key
  | @time ns hd hod =>
    cases dataType_unique hdt hd
    have key : Holds (timeType 32 "build.recap.Time" "nanosecond") (.time (ns * 1)) :=
      .time rfl rfl rfl (intValue_32.mpr ⟨by have := hod.1; omega, hf.time ns rfl⟩)
    rw [Int.mul_one] at key
    cases h
    exact .inr key

/-! ## SQLite -/

theorem hasAffinity_unique {s : String} {a b : Affinity} (ha : HasAffinity s a) (hb : HasAffinity s b) : a = b := by
  cases ha <;> cases hb <;> first | rfl | (exfalso; grind)

theorem declared_str {v : PyVal} {r s : String} (h : Relational.orElse v (.str "") = .str r) (hd : Declared v s) : r = s := by
  rcases hd with rfl | ⟨rfl, rfl⟩
  · unfold Relational.orElse at h
    split at h
    · cases h; rfl
    · rename_i hs
      cases h
      simp [PyVal.truthy] at hs
      exact hs.symm
  · cases h; rfl

theorem affinity_of {cm : CaseMap} {c : Dict} {v : PyVal} {r : String} {a b : Affinity} (h1 : Dict.get? c "TYPE" = some v)
    (h2 : Relational.orElse v (.str "") = .str r) (h3 : HasAffinity (cm.upper r) a) (h : ColumnAffinity cm c b) : a = b := by
  obtain ⟨ty, s, h4, h5, h6⟩ := h
  cases h1.symm.trans h4
  cases declared_str h2 h5
  exact hasAffinity_unique h3 h6

theorem fits_declared {c : Dict} {o : PyVal} {n : Nat} (ho : Dict.get? c "CHARACTER_OCTET_LENGTH" = some o)
    (h : WithinDeclared c n) (hn : n ≤ 2147483647) : Fits (Relational.orElse o sqliteMax) n := by
  rcases h with h | ⟨k, h, hk⟩
  · cases ho.symm.trans h
    exact .inr ⟨2147483647, rfl, by omega⟩
  · cases ho.symm.trans h
    obtain ⟨m, hm, hk⟩ := orElse_int (d := 2147483647) hk (by decide)
    exact .inr ⟨m, hm, hk⟩

theorem sqlite_holds {cm : CaseMap} {c : Dict} {base : RType} {v : Val} (h : sqliteParse cm c = .ok base)
    (hf : SQLiteFits cm c v) (hv : SQLite cm c v) : (v = .null ∧ DeclaredNullable cm c) ∨ Holds base v := by
  obtain ⟨ty, r, a, o, p, h1, h2, h3, h4, h5, h⟩ := sqliteParse_ok h
  by_cases hnull : v = .null
  · subst hnull
    cases hv with
    | null hn => exact .inl ⟨rfl, hn⟩
  refine .inr ?_
  cases hf with
  | null => exact absurd rfl hnull
  | int ha =>
    cases affinity_of h1 h2 h3 ha
    cases h
    cases hv with
    | int _ _ hi => exact .int rfl hi
  | real ha hp =>
    cases affinity_of h1 h2 h3 ha
    cases hv
    rcases h with ⟨ht, hg, rfl⟩ | ⟨-, rfl⟩
    · exfalso
      rcases hp with hp | ⟨k, hp, hk⟩
      · cases h5.symm.trans hp
        cases ht
      · cases h5.symm.trans hp
        simp only [PyVal.gtInt, Except.ok.injEq, decide_eq_false_iff_not] at hg
        exact hg hk
    · exact .float (Int.le_refl _)
  | text ha hl =>
    cases affinity_of h1 h2 h3 ha
    cases h
    cases hv with
    | text hn => exact .string rfl (fits_declared h4 hl hn)
  | blob ha hl =>
    cases affinity_of h1 h2 h3 ha
    cases h
    cases hv with
    | blob hn => exact .bytes rfl (fits_declared h4 hl hn)
  | numeric ha =>
    cases affinity_of h1 h2 h3 ha
    cases h
    cases hv with
    | null => exact absurd rfl hnull
    | int _ _ hi => exact .union (t := .int (.int 64) (.bool true) {}) (by simp) (.int rfl hi)
    | real => exact .union (t := .float (.int 64) {}) (by simp) (.float (Int.le_refl _))
    | text hn =>
      exact .union (t := .string sqliteMax (.bool true) {}) (by simp) (.string rfl (.inr ⟨_, rfl, by omega⟩))
    | blob hn =>
      exact .union (t := .bytes sqliteMax (.bool true) {}) (by simp) (.bytes rfl (.inr ⟨_, rfl, by omega⟩))

end Recap.Values
