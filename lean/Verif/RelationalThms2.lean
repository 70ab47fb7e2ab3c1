import Verif.RelationalThms
import Verif.RegistryThms

/-!
# The state of the PostgreSQL converter (C54, C75 to C78)

The PostgreSQL converter registers an alias for every array column.  These theorems say what
this means for repeated conversions.
-/

set_option autoImplicit false

namespace Recap

open RType Relational Spec

/-! ## The registry of the converter only grows -/

theorem pgSelfArray_grows (cfg : PgConfig) (name : PyVal) (v : RType) (reg : Registry) :
    Grows reg (pgSelfArray cfg name v reg).2 := by
  unfold pgSelfArray
  split
  · simp only
    split
    · exact Grows.refl _
    · rename_i r hr
      obtain ⟨s, -, h1, h2, rfl⟩ := registerAlias_ok hr
      exact ⟨_, rfl, by simp [names], fun a ha => by
        simp only [names, List.map_cons, List.map_nil, List.mem_singleton] at ha
        subst ha
        exact ⟨h1, h2⟩⟩
  · exact Grows.refl _

theorem pgParse_grows (cm : CaseMap) (cfg : PgConfig) (c : Dict) (reg : Registry) :
    Grows reg (pgParse cm cfg c reg).2 := by
  unfold pgParse
  rw [pgParseFuel]
  split
  · exact Grows.refl _
  · split
    · rw [pgParse_element]
      split
      · rename_i h
        split at h <;> (simp only [Prod.mk.injEq] at h; obtain ⟨-, rfl⟩ := h; exact Grows.refl _)
      · rename_i h
        split at h
        · cases h
        · simp only [Prod.mk.injEq] at h
          obtain ⟨-, rfl⟩ := h
          split
          · exact Grows.refl _
          · exact pgSelfArray_grows _ _ _ _
    · exact Grows.refl _

theorem parse_grows (cm : CaseMap) (d : Dialect) (c : Dict) (reg : Registry) :
    Grows reg (d.parse cm c reg).2 := by
  cases d with
  | postgresql cfg => exact pgParse_grows cm cfg c reg
  | _ => exact Grows.refl _

theorem fieldsOf_grows (cm : CaseMap) (d : Dialect) : ∀ (cols : List Dict) (reg : Registry),
    Grows reg (fieldsOf cm (d.parse cm) cols reg).2
  | [], reg => Grows.refl _
  | c :: cs, reg => by
    have h := parse_grows cm d c reg
    rw [fieldsOf]
    split
    · rename_i e st hp; rw [hp] at h; exact h
    · rename_i b st hp
      rw [hp] at h
      split
      · exact h
      · have h2 := fieldsOf_grows cm d cs st
        split
        · rename_i e st' hp'; rw [hp'] at h2; exact h.trans h2
        · rename_i fs st' hp'; rw [hp'] at h2; exact h.trans h2

theorem toRecap_grows (cm : CaseMap) (d : Dialect) (cols : List Dict) (reg : Registry) :
    Grows reg (d.toRecap cm cols reg).2 := by
  have h := fieldsOf_grows cm d cols reg
  unfold Dialect.toRecap toRecap
  split
  · rename_i e st hp; rw [hp] at h; exact h
  · rename_i e st hp; rw [hp] at h; exact h

/-- The registries that a converter can have: the one it starts with, and those left behind by
conversions, failed ones included. -/
inductive ConverterState (cm : CaseMap) (d : Dialect) : Registry → Prop
  | new : ConverterState cm d newRegistry
  | convert {reg} (cols : List Dict) : ConverterState cm d reg →
      ConverterState cm d (d.toRecap cm cols reg).2

/-! ## C54 -/

/-- Conversion does not touch the registry: any dialect but PostgreSQL, or enforced dimensions,
or no array columns. -/
def Stateless (cm : CaseMap) (d : Dialect) (cols : List Dict) : Prop :=
  ∀ cfg, d = .postgresql cfg → cfg.enforce = true ∨ ∀ c ∈ cols, ¬DataType cm c "array"

theorem parse_stateless {cm : CaseMap} {d : Dialect} {c : Dict}
    (h : ∀ cfg, d = .postgresql cfg → cfg.enforce = true ∨ ¬DataType cm c "array")
    (reg reg' : Registry) :
    (d.parse cm c reg).1 = (d.parse cm c reg').1 ∧ (d.parse cm c reg).2 = reg := by
  cases d with
  | postgresql cfg =>
    simp only [Dialect.parse, pgParse]
    rw [pgParseFuel, pgParseFuel]
    cases hp : pgProps cm c with
    | error e => exact ⟨rfl, rfl⟩
    | ok p =>
      simp only
      split
      · rename_i ha
        rcases h cfg rfl with he | hn
        · rw [pgParse_element, pgParse_element]
          by_cases hl : cm.lower (lstripUnderscore p.udt) = "array"
          · rw [if_pos hl, if_pos hl]; exact ⟨rfl, rfl⟩
          · rw [if_neg hl, if_neg hl]
            cases pgScalar (cm.lower (lstripUnderscore p.udt)) (.int pgMax) (.int (pgMax * 8))
              (pgElement (lstripUnderscore p.udt)) with
            | error e => exact ⟨rfl, rfl⟩
            | ok v => simp only [he, if_true, and_self]
        · obtain ⟨-, hdt, -⟩ := pgProps_ok hp
          rw [ha] at hdt
          exact absurd hdt hn
      · exact ⟨rfl, rfl⟩
  | _ => exact ⟨rfl, rfl⟩

theorem fieldsOf_stateless {cm : CaseMap} {d : Dialect} : ∀ {cols : List Dict},
    Stateless cm d cols → ∀ (reg reg' : Registry),
    (fieldsOf cm (d.parse cm) cols reg).1 = (fieldsOf cm (d.parse cm) cols reg').1 ∧
      (fieldsOf cm (d.parse cm) cols reg).2 = reg
  | [], _, reg, reg' => ⟨rfl, rfl⟩
  | c :: cs, h, reg, reg' => by
    have hc : ∀ cfg, d = .postgresql cfg → cfg.enforce = true ∨ ¬DataType cm c "array" := by
      intro cfg e
      rcases h cfg e with h | h
      · exact .inl h
      · exact .inr (h c (List.mem_cons_self ..))
    have hcs : Stateless cm d cs := by
      intro cfg e
      rcases h cfg e with h | h
      · exact .inl h
      · exact .inr (fun c hc => h c (List.mem_cons_of_mem _ hc))
    have h1 := parse_stateless hc reg reg'
    have h2 := parse_stateless hc reg' reg
    have ih := fieldsOf_stateless hcs reg reg'
    rw [fieldsOf, fieldsOf]
    cases hx : d.parse cm c reg with
    | mk x y =>
      cases hx' : d.parse cm c reg' with
      | mk x' y' =>
        rw [hx, hx'] at h1
        rw [hx'] at h2
        simp only at h1 h2
        obtain ⟨rfl, rfl⟩ := h1
        have h2 := h2.2
        subst h2
        cases x with
        | error e => exact ⟨rfl, rfl⟩
        | ok b =>
          simp only
          cases fieldOf cm c b with
          | error e => exact ⟨rfl, rfl⟩
          | ok f =>
            simp only
            revert ih
            cases fieldsOf cm (d.parse cm) cs y with
            | mk u v =>
              cases fieldsOf cm (d.parse cm) cs y' with
              | mk u' v' =>
                rintro ⟨rfl, rfl⟩
                cases u <;> exact ⟨rfl, rfl⟩

/-- **C54, the part that holds.**  Without arrays of free dimensions the result of a conversion
does not depend on the state of the converter, and the state does not change: so converting the
same columns again, after any other conversions, gives the same result. -/
theorem C54_repeatable_partial (cm : CaseMap) (d : Dialect) (cols : List Dict)
    (h : Stateless cm d cols) (reg reg' : Registry) :
    (d.toRecap cm cols reg).1 = (d.toRecap cm cols reg').1 ∧ (d.toRecap cm cols reg).2 = reg := by
  have := fieldsOf_stateless h reg reg'
  unfold Dialect.toRecap toRecap
  revert this
  cases fieldsOf cm (d.parse cm) cols reg with
  | mk x y =>
    cases fieldsOf cm (d.parse cm) cols reg' with
    | mk x' y' =>
      rintro ⟨rfl, rfl⟩
      cases x <;> exact ⟨rfl, rfl⟩

example : Stateless asciiCase (.postgresql {}) [pgColumn "a" "int4" "int4" "NO" .none (.int 0)] := by
  intro cfg _
  right
  intro c hc
  rw [List.mem_singleton.mp hc]
  rintro ⟨s, hs, h⟩
  cases hs
  revert h
  decide +kernel

theorem fieldsOf_again {cm : CaseMap} {cfg : PgConfig} (he : cfg.enforce = false) :
    ∀ {cols : List Dict} {reg reg' reg'' : Registry} {fs : List RType},
      fieldsOf cm ((Dialect.postgresql cfg).parse cm) cols reg = (.ok fs, reg') →
      (∃ c ∈ cols, DataType cm c "array") → (∀ s ∈ names reg', s ∈ names reg'') →
      fieldsOf cm ((Dialect.postgresql cfg).parse cm) cols reg'' = (.error .valueError, reg'')
  | [], _, _, _, _, _, ⟨c, hc, _⟩, _ => by cases hc
  | c :: cs, reg, reg', reg'', fs, h, ⟨c', hc', ha'⟩, hn => by
    obtain ⟨b, st₁, f, fs', h1, h2, h3, rfl⟩ := fieldsOf_cons h
    by_cases ha : DataType cm c "array"
    · have hgrow := fieldsOf_grows cm (.postgresql cfg) cs st₁
      rw [h3] at hgrow
      obtain ⟨p, hp, hcase⟩ := pgParse_ok h1
      obtain ⟨-, hdt, -⟩ := pgProps_ok hp
      have hd := dataType_unique hdt ha
      rcases hcase with ⟨hne, -⟩ | ⟨-, v, hl, hv, ⟨he', -⟩ | ⟨-, s, hs, rfl, hr⟩⟩
      · exact absurd hd hne
      · rw [he] at he'; cases he'
      · obtain ⟨s', hs', hnot, hok, rfl⟩ := registerAlias_ok hr
        have hmem : s' ∈ names reg'' := by
          apply hn
          obtain ⟨new, rfl, -⟩ := hgrow
          simp [names]
        have hfail : reg''.registerAlias (selfList (cfg.ns ++ "." ++ replaceDots s) v) =
            .error .valueError := by
          have e : cfg.ns ++ "." ++ replaceDots s = s' := by
            simpa [selfList, attrs] using hs'
          simp only [Registry.registerAlias, selfList, attrs, e]
          rw [if_pos ((find?_isSome_iff _ _).mpr hmem)]
        have hparse : (Dialect.postgresql cfg).parse cm c reg'' = (.error .valueError, reg'') := by
          simp only [Dialect.parse, pgParse]
          rw [pgParseFuel, hp]
          simp only
          rw [if_pos hd, pgParse_element, if_neg hl, hv]
          simp only [he, Bool.false_eq_true, if_false, pgSelfArray, hs, hfail]
        rw [fieldsOf, hparse]
    · have hst : ∀ cfg', Dialect.postgresql cfg = .postgresql cfg' →
          cfg'.enforce = true ∨ ¬DataType cm c "array" := fun _ _ => .inr ha
      have e1 := parse_stateless hst reg reg''
      have e2 := parse_stateless hst reg'' reg
      rw [h1] at e1 e2
      have hparse : (Dialect.postgresql cfg).parse cm c reg'' = (.ok b, reg'') :=
        Prod.ext e2.1 e2.2
      rw [fieldsOf, hparse]
      simp only [h2]
      have hrest : ∃ c ∈ cs, DataType cm c "array" := by
        rcases List.mem_cons.mp hc' with rfl | hc'
        · exact absurd ha' ha
        · exact ⟨c', hc', ha'⟩
      rw [fieldsOf_again he h3 hrest hn]

/-- **C54 is false, in full.**  If a table with an array column has been converted once, then
converting it again with the same converter always fails with `ValueError`, whatever was
converted in between. -/
theorem C54_second_read_fails (cm : CaseMap) (cfg : PgConfig) (he : cfg.enforce = false)
    (cols : List Dict) (reg reg' reg'' : Registry) (t : RType)
    (h : (Dialect.postgresql cfg).toRecap cm cols reg = (.ok t, reg'))
    (ha : ∃ c ∈ cols, DataType cm c "array") (hg : Grows reg' reg'') :
    (Dialect.postgresql cfg).toRecap cm cols reg'' = (.error .valueError, reg'') := by
  obtain ⟨fs, rfl, h'⟩ := toRecap_ok h
  have := fieldsOf_again (reg'' := reg'') he h' ha (by
    obtain ⟨new, rfl, -⟩ := hg
    intro s hs
    simp only [names, List.map_append, List.mem_append]
    exact .inl hs)
  unfold Dialect.toRecap toRecap
  rw [this]

/-- **C54 is false.**  A concrete table that is converted once and not again. -/
theorem C54_second_read_refuted :
    ∃ cols t, ((Dialect.postgresql {}).toRecap asciiCase cols newRegistry).1 = .ok t ∧
      ((Dialect.postgresql {}).toRecap asciiCase cols
        ((Dialect.postgresql {}).toRecap asciiCase cols newRegistry).2).1 = .error .valueError :=
  ⟨[pgColumn "tags" "ARRAY" "_text" "NO" .none (.int 1)], _,
    show _ = Except.ok (.struct [.list (.union [.string (.int 1073741824) (.bool true) {},
      .proxy .none { alias := .str "_root.tags" }] {}) .none (.bool true)
      { alias := .str "_root.tags", extra := [("name", .str "tags")] }] {}) by decide +kernel,
    by decide +kernel⟩

/-! ## C75 -/

/-- **C75.**  Without enforced dimensions an array column becomes a list whose values are the
element or a reference to the list itself: in the registry of the converter, now and after any
further conversions, the reference stands for that very list. -/
theorem C75_self_reference (cm : CaseMap) (cfg : PgConfig) (he : cfg.enforce = false)
    (c : Dict) (reg reg' reg'' : Registry) (b : RType)
    (h : (Dialect.postgresql cfg).parse cm c reg = (.ok b, reg')) (ha : DataType cm c "array")
    (hg : Grows reg' reg'') :
    ∃ name alias v u, Dict.get? c "COLUMN_NAME" = some (.str name) ∧
      alias = cfg.ns ++ "." ++ replaceDots name ∧
      b = .list (.union [v, .proxy .none { alias := .str alias }] {}) .none (.bool true)
        { alias := .str alias } ∧
      children v = [] ∧ v.isNullable = false ∧
      reg''.fromAlias (.str alias) = .ok u ∧ shape u = shape (definition b) := by
  obtain ⟨p, hp, hcase⟩ := pgParse_ok h
  obtain ⟨hname, hdt, -⟩ := pgProps_ok hp
  have hd := dataType_unique hdt ha
  rcases hcase with ⟨hne, -⟩ | ⟨-, v, hl, hv, ⟨he', -⟩ | ⟨-, s, hs, rfl, hr⟩⟩
  · exact absurd hd hne
  · rw [he] at he'; cases he'
  · obtain ⟨s', hs', hnot, hok, rfl⟩ := registerAlias_ok hr
    have e : cfg.ns ++ "." ++ replaceDots s = s' := by simpa [selfList, attrs] using hs'
    subst e
    refine ⟨s, _, v, Registry.stored reg (selfList (cfg.ns ++ "." ++ replaceDots s) v),
      by rw [hname, hs], rfl, rfl, (pgScalar_simple _ _ _ _ _ hv).leaf,
      (pgScalar_simple _ _ _ _ _ hv).nonNull, ?_, ?_⟩
    · have : reg''.find? (cfg.ns ++ "." ++ replaceDots s) =
          some (Registry.stored reg (selfList (cfg.ns ++ "." ++ replaceDots s) v)) := by
        apply Grows.find? hg
        rw [find?_append]
        have : Registry.find? reg (cfg.ns ++ "." ++ replaceDots s) = .none := by
          have := mt (find?_isSome_iff reg (cfg.ns ++ "." ++ replaceDots s)).mp hnot
          simpa using this
        rw [this]
        simp [Registry.find?]
      simp only [Registry.fromAlias, this]
    · exact shape_stored _ _

example : ((Dialect.postgresql { ns := "db.public" }).parse asciiCase
    (pgColumn "tags" "ARRAY" "_varchar" "NO" .none (.int 1)) newRegistry).1 =
    .ok (.list (.union [.string (.int 1073741824) (.bool true) {},
      .proxy .none { alias := .str "db.public.tags" }] {}) .none (.bool true)
      { alias := .str "db.public.tags" }) := by
  decide +kernel

/-! ## C76 -/

theorem fieldsOf_single (cm : CaseMap) (d : Dialect) (c : Dict) (cs : List Dict) (reg : Registry)
    (h : Stateless cm d (c :: cs)) (f : RType) (fs : List RType) :
    (fieldsOf cm (d.parse cm) (c :: cs) reg).1 = .ok (f :: fs) ↔
      (fieldsOf cm (d.parse cm) [c] reg).1 = .ok [f] ∧
      (fieldsOf cm (d.parse cm) cs reg).1 = .ok fs := by
  have hc : ∀ cfg, d = .postgresql cfg → cfg.enforce = true ∨ ¬DataType cm c "array" := by
    intro cfg e
    rcases h cfg e with h | h
    · exact .inl h
    · exact .inr (h c (List.mem_cons_self ..))
  have h1 := (parse_stateless hc reg reg).2
  rw [fieldsOf, fieldsOf]
  cases hx : d.parse cm c reg with
  | mk x y =>
    rw [hx] at h1
    simp only at h1
    subst h1
    cases x with
    | error e => simp
    | ok b =>
      simp only
      cases fieldOf cm c b with
      | error e => simp
      | ok g =>
        simp only [fieldsOf]
        cases fieldsOf cm (d.parse cm) cs y with
        | mk u v => cases u <;> simp

/-- **C76, the part that holds.**  Without arrays of free dimensions, a column is converted
independently of the other columns: the table converts to the fields `fs` exactly when each
column alone converts to its field. -/
theorem C76_columns_independent_partial (cm : CaseMap) (d : Dialect) (reg : Registry) :
    ∀ (cols : List Dict) (fs : List RType), Stateless cm d cols →
      ((d.toRecap cm cols reg).1 = .ok (.struct fs {}) ↔
        fs.length = cols.length ∧ ∀ (i : Nat) c f, cols[i]? = some c → fs[i]? = some f →
          (d.toRecap cm [c] reg).1 = .ok (.struct [f] {})) := by
  have key : ∀ (cols : List Dict) (fs : List RType),
      (d.toRecap cm cols reg).1 = .ok (.struct fs {}) ↔
        (fieldsOf cm (d.parse cm) cols reg).1 = .ok fs := by
    intro cols fs
    unfold Dialect.toRecap toRecap
    cases fieldsOf cm (d.parse cm) cols reg with
    | mk u v => cases u <;> simp
  intro cols
  induction cols with
  | nil =>
    intro fs _
    rw [key]
    cases fs <;> simp [fieldsOf]
  | cons c cs ih =>
    intro fs h
    have hcs : Stateless cm d cs := by
      intro cfg e
      rcases h cfg e with h | h
      · exact .inl h
      · exact .inr (fun c hc => h c (List.mem_cons_of_mem _ hc))
    rw [key]
    cases fs with
    | nil =>
      simp only [List.length_nil, List.length_cons, Nat.right_eq_add, Nat.add_eq_zero_iff]
      constructor
      · intro hf
        exfalso
        rw [fieldsOf] at hf
        split at hf
        · cases hf
        · split at hf
          · cases hf
          · split at hf <;> cases hf
      · rintro ⟨h, -⟩
        omega
    | cons f fs =>
      rw [fieldsOf_single cm d c cs reg h f fs, ← key, ← key, ih fs hcs]
      constructor
      · rintro ⟨h1, h2, h3⟩
        refine ⟨by simp [h2], ?_⟩
        intro i c' f' hc' hf'
        cases i with
        | zero =>
          simp only [List.getElem?_cons_zero, Option.some.injEq] at hc' hf'
          subst hc' hf'
          exact h1
        | succ i =>
          simp only [List.getElem?_cons_succ] at hc' hf'
          exact h3 i c' f' hc' hf'
      · rintro ⟨h2, h3⟩
        refine ⟨h3 0 c f rfl rfl, by simpa using h2, ?_⟩
        intro i c' f' hc' hf'
        exact h3 (i + 1) c' f' (by simpa using hc') (by simpa using hf')

example : Stateless asciiCase .mysql
    [sqlColumn "a" "int" "NO" .none .none .none .none] := by
  intro cfg h; cases h

/-- **C76 is false.**  Two array columns that each convert, `a.b` and `a_b`, cannot be in one
PostgreSQL table: their aliases collide. -/
theorem C76_array_names_refuted :
    ∃ c c' t t', ((Dialect.postgresql {}).toRecap asciiCase [c] newRegistry).1 = .ok t ∧
      ((Dialect.postgresql {}).toRecap asciiCase [c'] newRegistry).1 = .ok t' ∧
      Dict.get? c "COLUMN_NAME" ≠ Dict.get? c' "COLUMN_NAME" ∧
      ((Dialect.postgresql {}).toRecap asciiCase [c, c'] newRegistry).1 = .error .valueError :=
  ⟨pgColumn "a.b" "ARRAY" "_text" "NO" .none (.int 1),
    pgColumn "a_b" "ARRAY" "_text" "NO" .none (.int 1), _, _,
    show _ = Except.ok (.struct [.list (.union [.string (.int 1073741824) (.bool true) {},
      .proxy .none { alias := .str "_root.a_b" }] {}) .none (.bool true)
      { alias := .str "_root.a_b", extra := [("name", .str "a.b")] }] {}) by decide +kernel,
    show _ = Except.ok (.struct [.list (.union [.string (.int 1073741824) (.bool true) {},
      .proxy .none { alias := .str "_root.a_b" }] {}) .none (.bool true)
      { alias := .str "_root.a_b", extra := [("name", .str "a_b")] }] {}) by decide +kernel,
    by decide +kernel, by decide +kernel⟩

/-! ## C77 -/

/-- **C77, the part that holds.**  If a PostgreSQL column of data type `dt` converts, then so
does an array column with elements of that type and `n` enforced dimensions, unless `dt` is a
timestamp, a decimal, an enum or an array. -/
theorem C77_array_elements_partial (cm : CaseMap) (cfg : PgConfig) (he : cfg.enforce = true)
    (c c' : Dict) (reg : Registry) (b : RType) (dt : String)
    (h : ((Dialect.postgresql cfg).parse cm c reg).1 = .ok b) (hdt : DataType cm c dt)
    (h1 : ¬Starts "timestamp" dt) (h2 : ¬Starts "decimal" dt) (h3 : ¬Starts "numeric" dt)
    (h4 : dt ≠ "user-defined") (h5 : dt ≠ "array")
    (name octet maxLength : PyVal) (u : String) (n : Nat)
    (hname : Dict.get? c' "COLUMN_NAME" = some name)
    (ha : DataType cm c' "array")
    (ho : Dict.get? c' "CHARACTER_OCTET_LENGTH" = some octet)
    (hm : Dict.get? c' "CHARACTER_MAXIMUM_LENGTH" = some maxLength)
    (hu : Dict.get? c' "UDT_NAME" = some (.str u)) (hu' : cm.lower (lstripUnderscore (cm.lower u)) = dt)
    (hn : Dict.get? c' "ATTNDIMS" = some (.int n)) :
    ∃ b', ((Dialect.postgresql cfg).parse cm c' reg).1 = .ok b' := by
  have hnd : ¬(n : Int) < 0 := by omega
  obtain ⟨s, hs, hs'⟩ := ha
  have hp' : pgProps cm c' = .ok
      { name := name, dataType := "array", octet := octet, maxLength := maxLength,
        udt := cm.lower u, ndims := .int n } := by
    have hor : ∃ r, orElse (.str u) (.str "") = .str r ∧ cm.lower r = cm.lower u := by
      unfold orElse
      split
      · exact ⟨u, rfl, rfl⟩
      · rename_i ht
        have : u = "" := by simpa [PyVal.truthy] using ht
        exact ⟨"", rfl, by rw [this]⟩
    obtain ⟨r, hr1, hr2⟩ := hor
    simp only [pgProps, item, hname, hs, ho, hm, hu, hn, bind, Except.bind, strMethod, hr1, hr2,
      ← hs', pure, Except.pure]
  have hpar : ∃ reg', (Dialect.postgresql cfg).parse cm c reg = (.ok b, reg') := ⟨_, Prod.ext h rfl⟩
  obtain ⟨reg', hpar⟩ := hpar
  obtain ⟨p, hp, hcase⟩ := pgParse_ok hpar
  obtain ⟨-, hpd, -⟩ := pgProps_ok hp
  have hd := dataType_unique hpd hdt
  rcases hcase with ⟨-, -, hsc⟩ | ⟨harr, -⟩
  · rw [hd] at hsc
    have nots : ∀ {p : String}, ¬Starts p dt → startsWith dt p = false := by
      intro p hn
      exact Bool.eq_false_iff.mpr (fun e => hn ((startsWith_iff _ _).mp e))
    have hv : ∃ v, pgScalar dt (.int pgMax) (.int (pgMax * 8))
        (pgElement (lstripUnderscore (cm.lower u))) = .ok v := by
      have f1 := nots h1
      have f2 := nots h2
      have f3 := nots h3
      have f4 : (dt == "user-defined") = false := by simpa using h4
      unfold pgScalar at hsc ⊢
      simp only [f1, f2, f3, f4, Bool.or_self, Bool.false_eq_true, if_false] at hsc ⊢
      have yes : ∀ {c : Prop} [Decidable c] {x y x' y' : Except PyErr RType},
          (if c then x else y) = .ok b → (∃ v, x' = .ok v) → (y = .ok b → ∃ v, y' = .ok v) →
          ∃ v, (if c then x' else y') = .ok v := by
        intro c _ x y x' y' h hx hy
        split
        · exact hx
        · rename_i hc; rw [if_neg hc] at h; exact hy h
      refine yes hsc ⟨_, rfl⟩ (fun hsc => ?_)
      refine yes hsc ⟨_, rfl⟩ (fun hsc => ?_)
      refine yes hsc ⟨_, rfl⟩ (fun hsc => ?_)
      refine yes hsc ⟨_, rfl⟩ (fun hsc => ?_)
      refine yes hsc ⟨_, rfl⟩ (fun hsc => ?_)
      refine yes hsc ⟨_, rfl⟩ (fun hsc => ?_)
      refine yes hsc ⟨_, rfl⟩ (fun hsc => ?_)
      refine yes hsc ⟨_, rfl⟩ (fun hsc => ?_)
      refine yes hsc ⟨_, rfl⟩ (fun hsc => ?_)
      refine yes hsc ⟨_, rfl⟩ (fun hsc => ?_)
      refine yes hsc ⟨_, rfl⟩ (fun hsc => ?_)
      cases hsc
    obtain ⟨v, hv⟩ := hv
    refine ⟨nDimList v n, ?_⟩
    simp only [Dialect.parse, pgParse]
    rw [pgParseFuel, hp']
    simp only
    rw [if_pos trivial, pgParse_element, hu', if_neg h5, hv]
    simp only [he, if_true, createNDim, if_neg hnd, Int.toNat_natCast]
  · exact absurd (hd ▸ harr) h5

example : ((Dialect.postgresql { enforce := true }).parse asciiCase
    (pgColumn "m" "ARRAY" "_uuid" "NO" .none (.int 1)) newRegistry).1 =
    .ok (.list (.union [.null {}, .string (.int 36) (.bool false)
      { logical := .str "build.recap.UUID" }] {}) .none (.bool true) {}) := by
  decide +kernel

/-- **C77 is false.**  A `timestamp` column converts, but an array of timestamps fails with
`KeyError`; so does an array of `numeric`. -/
theorem C77_timestamp_array_refuted :
    ((Dialect.postgresql {}).toRecap asciiCase
        [pgColumn "t" "timestamp" "timestamp" "NO" .none (.int 0)] newRegistry).1 =
      .ok (.struct [setExtra (timeType 64 "build.recap.Timestamp" "microsecond") "name"
        (.str "t")] {}) ∧
    ((Dialect.postgresql {}).toRecap asciiCase
        [pgColumn "t" "ARRAY" "_timestamp" "NO" .none (.int 1)] newRegistry).1 =
      .error .keyError ∧
    ((Dialect.postgresql {}).toRecap asciiCase
        [pgColumn "t" "numeric" "numeric" "NO" .none (.int 0)] newRegistry).1 =
      .ok (.struct [setExtra (decimalType 32 (.int 10) (.int 0)) "name" (.str "t")] {}) ∧
    ((Dialect.postgresql {}).toRecap asciiCase
        [pgColumn "t" "ARRAY" "_numeric" "NO" .none (.int 1)] newRegistry).1 =
      .error .keyError := by
  decide +kernel

/-! ## C78 -/

/-- A signed integer type can hold every time of day in its unit: `86400 * 10^k` units make a
day. -/
def HoldsTimeOfDay (t : RType) : Prop :=
  ∃ (bits k : Nat) (x : Attrs) (u : String), t = .int (.int bits) (.bool true) x ∧
    Dict.get? x.extra "unit" = some (.str u) ∧ decimalPlaces u = some (k : Int) ∧
    86400 * 10 ^ k ≤ 2 ^ (bits - 1)

/-- **C78, the part that holds.**  The integer for a Snowflake `TIME(p)` column with `p ≤ 3` can
hold every time of day. -/
theorem C78_time_of_day_partial (cm : CaseMap) (c : Dict) (t : RType) (dt : String) (p : Nat)
    (h : snowflakeParse cm c = .ok t) (hl : t.attrs.logical = .str "build.recap.Time")
    (hdt : DataType cm c dt) (hp : TimeParameter dt p) (h3 : p ≤ 3) : HoldsTimeOfDay t := by
  unfold snowflakeParse at h
  obtain ⟨_, h1, h⟩ := bind_ok h
  obtain ⟨_, h2, h⟩ := bind_ok h
  obtain ⟨o, -, h⟩ := bind_ok h
  obtain ⟨r, rfl, rfl⟩ := strMethod_ok h2
  have := dataType_unique hdt ⟨r, item_ok h1, rfl⟩
  subst this
  have key : Yields (fun t => t.attrs.logical = .str "build.recap.Time" → HoldsTimeOfDay t)
      (snowflakeType (cm.lower r) o c) := by
    unfold snowflakeType
    branches
    all_goals first
      | (intro h; simp [attrs, decimalType] at h; done)
      | (intro h; simp [attrs, timeType] at h; done)
      | (intro h
         rename_i u hu
         rw [parameter_unit hp, getTimeUnit_cases] at hu
         injection hu with hu
         subst hu
         by_cases h0 : (p : Int) = 0
         · rw [if_pos h0]; exact ⟨32, 0, _, _, rfl, rfl, rfl, by decide⟩
         · rw [if_neg h0, if_pos (by omega)]; exact ⟨32, 3, _, _, rfl, rfl, rfl, by decide⟩)
  exact key t h hl

example : snowflakeParse asciiCase (sqlColumn "t" "time(3)" "NO" .none .none .none .none) =
    .ok (timeType 32 "build.recap.Time" "millisecond") := by decide +kernel

/-- **C78 is false.**  A Snowflake `TIME` column, of the default precision, becomes a 32-bit
count of nanoseconds, which overflows after about two seconds. -/
theorem C78_time_overflow_refuted :
    ∃ c t, snowflakeParse asciiCase c = .ok t ∧ t.attrs.logical = .str "build.recap.Time" ∧
      ¬HoldsTimeOfDay t := by
  refine ⟨sqlColumn "t" "TIME" "NO" .none .none .none .none,
    timeType 32 "build.recap.Time" "nanosecond", by decide +kernel, rfl, ?_⟩
  rintro ⟨bits, k, x, u, h1, h2, h3, h4⟩
  simp only [timeType, RType.int.injEq, PyVal.int.injEq] at h1
  obtain ⟨hb, -, rfl⟩ := h1
  cases h2
  have hk : k = 9 := by
    simp only [decimalPlaces, Option.some.injEq] at h3
    omega
  have hb' : bits = 32 := by omega
  subst hk hb'
  revert h4
  decide

end Recap
