import Verif.PgCatalogThms
import Verif.ListedSpec

/-!
# Reading a table that does not exist (C141)
-/

set_option autoImplicit false

namespace Recap.Missing

open Recap.Relational Recap.PgCatalog Recap.PgCatalog.Spec Recap.Listed

/-! ## SQLite -/

/-- **C141, the part that holds.** Reading a table of a SQLite file says that the table does not exist exactly when the
file has no table with that name. -/
theorem C141_sqlite_partial (cm : CaseMap) (reserved : Url.Chars → Bool) (file : List Object) (table : Url.Chars) :
    sqliteRead cm reserved file table = .error .missing ↔ ∀ o ∈ file, o.isTable = true → o.name ≠ table := by
  have hex : tableExists file table = true ↔ ∃ o ∈ file, o.isTable = true ∧ o.name = table := by
    simp only [tableExists, List.any_eq_true, Bool.and_eq_true, beq_iff_eq]
  by_cases h : tableExists file table = true
  · obtain ⟨o, ho, h1, h2⟩ := hex.mp h
    refine ⟨fun h' => ?_, fun h' => absurd h2 (h' o ho h1)⟩
    exfalso
    unfold sqliteRead at h'
    rw [if_pos h] at h'
    cases hp : pragmaName reserved table with
    | error e =>
      rw [hp] at h'
      have : e = .missing := by injection h'
      exact pragma_not_missing (this ▸ hp)
    | ok name =>
      rw [hp] at h'
      simp only [bind, Except.bind] at h'
      split at h'
      · cases h'
      · cases h'
  · refine ⟨fun _ o ho h1 h2 => h (hex.mpr ⟨o, ho, h1, h2⟩), fun _ => ?_⟩
    unfold sqliteRead
    rw [if_neg h]
where
  closes_not_missing : ∀ {s : Url.Chars}, closes s ≠ .error .missing := by
    intro s
    induction s with
    | nil => intro h; cases h
    | cons c cs ih =>
      intro h
      unfold closes at h
      split at h
      · exact ih h
      · split at h <;> cases h
  quoted_not_missing : ∀ {q : Char} {s : Url.Chars}, quoted q s ≠ .error .missing := by
    intro q s
    induction s using quoted.induct q with
    | case1 => intro h; cases h
    | case2 c => intro h; unfold quoted at h; split at h <;> cases h
    | _ =>
      intro h
      unfold quoted at h
      simp_all [bind, Except.bind]
      try (split at h <;> simp_all [pure, Except.pure])
  pragma_not_missing : ∀ {reserved : Url.Chars → Bool} {s : Url.Chars}, pragmaName reserved s ≠ .error .missing := by
    intro reserved s h
    unfold pragmaName at h
    split at h
    · cases h
    · rename_i c cs
      split at h
      · cases hq : quoted c cs with
        | error e =>
          rw [hq] at h
          have : e = .missing := by injection h
          exact quoted_not_missing (this ▸ hq)
        | ok p =>
          rw [hq] at h
          cases hc : closes p.2 with
          | error e =>
            simp only [bind, Except.bind, hc] at h
            have : e = .missing := by injection h
            exact closes_not_missing (this ▸ hc)
          | ok _ => simp only [bind, Except.bind, hc] at h; cases h
      · split at h
        · simp only at h
          split at h
          · cases h
          · cases hc : closes ((c :: cs).dropWhile idChar) with
            | error e =>
              simp only [bind, Except.bind, hc] at h
              have : e = .missing := by injection h
              exact closes_not_missing (this ▸ hc)
            | ok _ => simp only [bind, Except.bind, hc] at h; cases h
        · split at h
          · split at h <;> cases h
          · cases h

/-- A file with a table. -/
example : sqliteRead asciiCase (fun _ => false) [⟨"orders".toList, true, []⟩] "order".toList = .error .missing ∧
    sqliteRead asciiCase (fun _ => false) [⟨"orders".toList, true, []⟩] "orders".toList = .ok (.struct [] {}) := by
  decide +kernel

/-! ## The others -/

/-- **C141 does not hold: PostgreSQL.** If the database has no such table, or none with a column that the user may see,
the type of a table without columns is returned. -/
theorem C141_postgresql_refuted (cm : CaseMap) (cfg : PgConfig) (db : Database) (schema table : String) (rows : List Row)
    (reg : Registry) (hw : WellFormed db) (h : Answer db db.name schema table rows)
    (hn : ∀ a, ¬ColumnOf db schema table a) : pgSchema cm cfg rows reg = (.ok (.struct [] {}), reg) := by
  obtain ⟨gs, hg, as, h1, h2, -⟩ := answer_rows hw h
  have : as = [] := by
    cases as with
    | nil => rfl
    | cons a as => exact absurd ((h1.all a).mp List.mem_cons_self) (hn a)
  rw [this] at h2
  rw [List.length_eq_zero_iff.mp h2]
  rfl

/-- So it is if another database is asked for than the one that is connected to, even if that one has the table. -/
theorem C141_catalog_refuted (cm : CaseMap) (cfg : PgConfig) (db : Database) (catalog schema table : String) (rows : List Row)
    (reg : Registry) (h : Answer db catalog schema table rows) (hc : catalog ≠ db.name) :
    pgSchema cm cfg rows reg = (.ok (.struct [] {}), reg) := by
  obtain ⟨gs, -, hp, -⟩ := h
  have : joined db gs catalog schema table = [] := by
    rw [List.eq_nil_iff_forall_not_mem]
    intro r hr
    unfold joined at hr
    obtain ⟨i, hi, hr⟩ := List.mem_flatMap.mp hr
    obtain ⟨n, -, hr⟩ := List.mem_flatMap.mp hr
    obtain ⟨c, -, hr⟩ := List.mem_flatMap.mp hr
    obtain ⟨a, -, hr⟩ := List.mem_flatMap.mp hr
    split at hr
    · rename_i g
      have hcat := g.2.2.2.2.2.2.2
      unfold columnsView at hi
      obtain ⟨a, -, hi⟩ := List.mem_flatMap.mp hi
      obtain ⟨c', -, n', -, t', -, -, -, -, -, -, -, -, hv⟩ := view_mem (a := a) hi
      exact hc (by rw [← hcat, hv]; rfl)
    · cases hr
  rw [this] at hp
  rw [hp.eq_nil]
  rfl

/-- **C141 does not hold: MySQL and Snowflake.** If the database has no such table, the type of a table without columns
is returned. -/
theorem C141_others_refuted (cm : CaseMap) (d : Dialect) (db : InfoSchema) (catalog schema table : String) (reg : Registry)
    (h : ∀ c ∈ db.columns, ¬(c.catalog = catalog ∧ c.schema = schema ∧ c.table = table)) :
    d.toRecap cm (Listed.rowsOf db (.table (.str catalog) (.str schema) (.str table))) reg = (.ok (.struct [] {}), reg) := by
  have : Listed.rowsOf db (.table (.str catalog) (.str schema) (.str table)) = [] := by
    unfold Listed.rowsOf
    rw [List.map_eq_nil_iff, List.filter_eq_nil_iff]
    intro c hc hc'
    simp only [Bool.and_eq_true, beq_iff_eq] at hc'
    exact h c hc ⟨hc'.2, hc'.1.2, hc'.1.1⟩
  rw [this]
  rfl

/-- There is no table `order` in the database, and no schema `publik`. -/
example : (∀ a, ¬ColumnOf shop "public" "order" a) ∧ (∀ a, ¬ColumnOf shop "publik" "orders" a) := by
  constructor
  · rintro a ⟨-, -, -, -, c, hc, n, hn, -, -, -, -, h⟩
    simp only [shop, List.mem_cons, List.not_mem_nil, or_false] at hc
    rcases hc with rfl | rfl | rfl <;> exact absurd h (by decide)
  · rintro a ⟨-, -, -, -, c, hc, n, hn, -, -, -, h, -⟩
    simp only [shop, List.mem_cons, List.not_mem_nil, or_false] at hn
    rcases hn with rfl | rfl | rfl <;> exact absurd h (by decide)

end Recap.Missing
