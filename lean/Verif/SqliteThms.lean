import Verif.SqliteClient
import Verif.RelationalThms

/-!
# Reading SQLite tables (C79, C80)
-/

set_option autoImplicit false

namespace Recap

open RType Relational Spec

/-- The column is declared `NOT NULL` or is part of the primary key. -/
def Required (row : Dict) : Prop :=
  (∃ v, Dict.get? row "NOTNULL" = some v ∧ v.truthy = true) ∨
    ∃ v, Dict.get? row "PK" = some v ∧ v.truthy = true

/-- What `addInformationSchema` derives from a row. -/
def RowDerived (cm : CaseMap) (row c : Dict) : Prop :=
    ∃ name dflt type precision scale octet n, Dict.get? row "NAME" = some name ∧
      Dict.get? row "DFLT_VALUE" = some dflt ∧ Dict.get? row "TYPE" = some type ∧
      typeParameters cm type = .ok (precision, scale, octet) ∧
      (n = "NO" ∨ n = "YES") ∧ (n = "NO" ↔ Required row) ∧
      Dict.get? c "COLUMN_NAME" = some name ∧ Dict.get? c "IS_NULLABLE" = some (.str n) ∧
      Dict.get? c "COLUMN_DEFAULT" = some dflt ∧ Dict.get? c "TYPE" = some type ∧
      Dict.get? c "NUMERIC_PRECISION" = some precision ∧
      Dict.get? c "CHARACTER_OCTET_LENGTH" = some octet

theorem addInformationSchema_ok {cm : CaseMap} {row c : Dict}
    (h : addInformationSchema cm row = .ok c) : RowDerived cm row c := by
  unfold addInformationSchema at h
  obtain ⟨notNull, h1, h⟩ := bind_ok h
  have h1 := item_ok h1
  have key : ∀ isNotNull : PyVal, (isNotNull.truthy = true ↔ Required row) → (do
      let name ← item row "NAME"
      let dflt ← item row "DFLT_VALUE"
      let type ← item row "TYPE"
      let x ← typeParameters cm type
      match x with
      | (precision, scale, octet) => pure (Dict.update row
        [("COLUMN_NAME", name), ("IS_NULLABLE", .str (if isNotNull.truthy then "NO" else "YES")),
          ("COLUMN_DEFAULT", dflt), ("NUMERIC_PRECISION", precision), ("NUMERIC_SCALE", scale),
          ("CHARACTER_OCTET_LENGTH", octet)])) = Except.ok c → RowDerived cm row c := by
    intro isNotNull hreq h
    obtain ⟨name, h2, h⟩ := bind_ok h
    obtain ⟨dflt, h3, h⟩ := bind_ok h
    obtain ⟨type, h4, h⟩ := bind_ok h
    obtain ⟨⟨precision, scale, octet⟩, h5, h⟩ := bind_ok h
    cases h
    refine ⟨name, dflt, type, precision, scale, octet, if isNotNull.truthy then "NO" else "YES",
      item_ok h2, item_ok h3, item_ok h4, h5, ?_, ?_, ?_⟩
    · cases isNotNull.truthy <;> simp
    · rw [← hreq]; cases isNotNull.truthy <;> simp
    · simp [Dict.update, Dict.get?_set_self, Dict.get?_set_ne, item_ok h4]
  simp only at h
  split at h
  · rename_i ht
    exact key notNull ⟨fun _ => .inl ⟨_, h1, ht⟩, fun _ => ht⟩ h
  · rename_i ht
    obtain ⟨pk, h2, h⟩ := bind_ok h
    have h2 := item_ok h2
    refine key pk ⟨fun hp => .inr ⟨_, h2, hp⟩, ?_⟩ h
    rintro (⟨v, hv, hvt⟩ | ⟨v, hv, hvt⟩)
    · rw [h1] at hv; cases hv; exact absurd hvt ht
    · rw [h2] at hv; cases hv; exact hvt

theorem sqliteRows_index {cm : CaseMap} : ∀ {rows cols : List Dict}, sqliteRows cm rows = .ok cols →
    cols.length = rows.length ∧ ∀ (i : Nat) r, rows[i]? = some r →
      ∃ c, cols[i]? = some c ∧ addInformationSchema cm r = .ok c
  | [], cols, h => by
    cases h
    exact ⟨rfl, by simp⟩
  | r :: rs, cols, h => by
    rw [sqliteRows] at h
    obtain ⟨c, h1, h⟩ := bind_ok h
    obtain ⟨cs, h2, h⟩ := bind_ok h
    cases h
    obtain ⟨hl, hi⟩ := sqliteRows_index h2
    refine ⟨by simp [hl], ?_⟩
    intro i r' hr
    cases i with
    | zero =>
      simp only [List.getElem?_cons_zero, Option.some.injEq] at hr
      subst hr
      exact ⟨c, rfl, h1⟩
    | succ i => exact hi i r' (by simpa using hr)

/-- **C79.**  Reading a SQLite table gives one field per column, in order, with the name and the
default of the column.  A column that is neither `NOT NULL` nor in the primary key gives a
nullable field; any other column does not, unless its affinity is NUMERIC.  Letter case is
assumed to be that of ASCII for the words YES and NO. -/
theorem C79_sqlite_fields_partial (cm : CaseMap) (hyes : cm.upper "YES" = "YES")
    (hno : cm.upper "NO" = "NO") (rows : List Dict) (t : RType)
    (h : sqliteSchema cm rows = .ok t) :
    ∃ fs, t = .struct fs {} ∧ fs.length = rows.length ∧
      ∀ (i : Nat) r f, rows[i]? = some r → fs[i]? = some f →
        ∃ name dflt, Dict.get? r "NAME" = some name ∧ Dict.get? r "DFLT_VALUE" = some dflt ∧
          Dict.get? f.attrs.extra "name" = some name ∧
          ((¬Required r ∨ dflt ≠ .none) → Dict.get? f.attrs.extra "default" = some dflt) ∧
          ((Required r ∧ dflt = .none) → Dict.get? f.attrs.extra "default" = .none) ∧
          (¬Required r → f.isNullable = true) ∧
          (f.isNullable = true → ¬Required r ∨
            ∃ v, Dict.get? r "TYPE" = some (.str v) ∧ HasAffinity (cm.upper v) .numeric) := by
  unfold sqliteSchema at h
  obtain ⟨cols, h1, h⟩ := bind_ok h
  obtain ⟨hl, hi⟩ := sqliteRows_index h1
  have hpair : ∃ reg', Dialect.sqlite.toRecap cm cols newRegistry = (.ok t, reg') :=
    ⟨_, Prod.ext h rfl⟩
  obtain ⟨reg', hpair⟩ := hpair
  obtain ⟨fs, rfl, hlen, hnames⟩ := C48_fields_match_columns cm .sqlite cols _ _ t hpair
  refine ⟨fs, rfl, by omega, ?_⟩
  intro i r f hr hf
  obtain ⟨c, hc, hadd⟩ := hi i r hr
  obtain ⟨name, dflt, type, precision, scale, octet, n, g1, g2, g3, g4, g5, g6, g7, g8, g9, g10,
    -⟩ := addInformationSchema_ok hadd
  have hdecl : DeclaredNullable cm c ↔ ¬Required r := by
    rw [← g6]
    constructor
    · rintro ⟨s, hs, hs'⟩ rfl
      rw [g8] at hs
      cases hs
      rw [hno] at hs'
      exact absurd hs' (by decide)
    · intro hn
      rcases g5 with rfl | rfl
      · exact absurd rfl hn
      · exact ⟨"YES", g8, hyes⟩
  obtain ⟨name', hn1, hn2⟩ := hnames i c f hc hf
  rw [g7] at hn1
  cases hn1
  obtain ⟨dflt', hd1, hd2, hd3⟩ := C50_defaults cm .sqlite cols _ _ fs {} hpair i c f hc hf
  rw [g9] at hd1
  cases hd1
  obtain ⟨hnull1, hnull2⟩ := C49_nullability_partial cm .sqlite cols _ _ fs {} hpair i c f hc hf
  rw [hdecl] at hd2 hd3 hnull1
  refine ⟨name, dflt, g1, g2, hn2, hd2, ?_, hnull1, ?_⟩
  · rintro ⟨h1, h2⟩
    exact hd3 (fun h => h.elim (fun h => h h1) (fun h => h h2))
  · intro hb
    rcases hnull2 hb with h | ⟨-, v, s, hv, rfl, haf⟩ | ⟨cfg, hcfg, -⟩
    · exact .inl (hdecl.mp h)
    · rw [g10] at hv
      cases hv
      exact .inr ⟨v, g3, haf⟩
    · cases hcfg

/-- A row of `PRAGMA table_info`. -/
def pragmaRow (name type : String) (notNull pk : Int) (dflt : PyVal) : Dict :=
  [("CID", .int 0), ("NAME", .str name), ("TYPE", .str type), ("NOTNULL", .int notNull),
    ("DFLT_VALUE", dflt), ("PK", .int pk)]

example : asciiCase.upper "YES" = "YES" ∧ asciiCase.upper "NO" = "NO" := by decide +kernel

example : sqliteSchema asciiCase
    [pragmaRow "id" "INTEGER" 0 1 .none, pragmaRow "name" "VARCHAR(80)" 0 0 (.str "'x'")] =
    .ok (.struct
      [.int (.int 64) (.bool true) { extra := [("name", .str "id")] },
        .union [.null {}, .string (.int 80) (.bool true) {}]
          { extra := [("default", .str "'x'"), ("name", .str "name")] }] {}) := by
  decide +kernel

/-- **C79 is false without the exception**: `price DECIMAL NOT NULL` gives a nullable field. -/
theorem C79_not_null_refuted :
    ∃ r t f, sqliteSchema asciiCase [r] = .ok t ∧ t = .struct [f] {} ∧ Required r ∧
      f.isNullable = true :=
  ⟨pragmaRow "price" "DECIMAL(10,2)" 1 0 .none, _,
    .union [.null {}, .int (.int 64) (.bool true) {}, .float (.int 64) {},
      .string sqliteMax (.bool true) {}, .bytes sqliteMax (.bool true) {}]
      { extra := [("name", .str "price")] }, by decide +kernel, rfl,
    .inl ⟨.int 1, by decide +kernel, by decide⟩, by decide⟩

/-! ## C80 -/

/-- The number written by decimal digits. -/
def decimalValue (ds : List Char) : Nat := ds.foldl (fun n c => 10 * n + (c.toNat - 48)) 0

theorem run_append {p : Char → Bool} : ∀ {w rest : List Char}, (∀ c ∈ w, p c = true) →
    (∀ c, rest.head? = some c → p c = false) → run p (w ++ rest) = (w, rest)
  | [], [], _, _ => rfl
  | [], c :: cs, _, h => by simp [run, h c rfl]
  | c :: cs, rest, h, h' => by
    have ih := run_append (rest := rest) (fun x hx => h x (List.mem_cons_of_mem _ hx)) h'
    rw [List.cons_append, run, if_pos (h c (List.mem_cons_self ..)), ih]

/-- **C80, the part that holds.**  If the declared type is one word followed by a length, as in
`VARCHAR(80)`, and the word has TEXT or BLOB affinity, then the declared length is the octet
length of the column (and so, if it is not zero, the length of the converted type). -/
theorem C80_declared_length_partial (cm : CaseMap) (row c : Dict) (s : String)
    (w ds : List Char) (post : List Char)
    (h : addInformationSchema cm row = .ok c) (hs : Dict.get? row "TYPE" = some (.str s))
    (hword : s.toList = w ++ '(' :: ds ++ ')' :: post)
    (hw : w ≠ []) (hw' : ∀ x ∈ w, x.isAlphanum = true ∨ x = '_')
    (hd : ds ≠ []) (hd' : ∀ x ∈ ds, x.isDigit = true)
    (haf : HasAffinity (cm.upper (cm.upper (String.ofList w))) .text ∨
      HasAffinity (cm.upper (cm.upper (String.ofList w))) .blob)
    (hne : cm.upper (String.ofList w) ≠ "") :
    Dict.get? c "CHARACTER_OCTET_LENGTH" = some (.int (decimalValue ds)) := by
  obtain ⟨name, dflt, type, precision, scale, octet, n, -, -, g3, g4, -, -, -, -, -, -, -, g⟩ :=
    addInformationSchema_ok h
  rw [hs] at g3
  cases g3
  rw [g]
  have hm : searchType s.toList = some (w, decimalValue ds, .none) := by
    have hat : matchTypeAt s.toList = some (w, decimalValue ds, .none) := by
      have e : s.toList = w ++ ('(' :: (ds ++ (')' :: post))) := by rw [hword]; simp
      have r1 : run isWord s.toList = (w, '(' :: (ds ++ (')' :: post))) := by
        rw [e]
        refine run_append (fun x hx => ?_) (fun x hx => ?_)
        · rcases hw' x hx with h | h <;> simp [isWord, h]
        · cases hx; decide
      have r2 : run Char.isDigit (ds ++ (')' :: post)) = (ds, ')' :: post) :=
        run_append hd' (fun x hx => by cases hx; decide)
      unfold matchTypeAt
      rw [r1]
      cases w with
      | nil => exact absurd rfl hw
      | cons a w =>
        simp only
        rw [r2]
        cases ds with
        | nil => exact absurd rfl hd
        | cons b ds => rfl
    cases hl : s.toList with
    | nil => rw [hl] at hword; cases w <;> simp at hword
    | cons a l =>
      rw [hl] at hat
      rw [searchType, hat]
  simp only [typeParameters] at g4
  split at g4
  · cases g4
  · rw [hm] at g4
    simp only at g4
    obtain ⟨af, hga, g4⟩ := bind_ok g4
    obtain ⟨r, hr, haf'⟩ := getAffinity_ok hga
    have : r = cm.upper (String.ofList w) := by
      unfold orElse at hr
      rw [if_pos (by simpa [PyVal.truthy] using hne)] at hr
      cases hr
      rfl
    subst this
    rcases haf with haf | haf
    · have := affinity_unique haf haf'
      subst this
      cases g4
      rfl
    · have := affinity_unique haf haf'
      subst this
      cases g4
      rfl

/-- **C80, end to end.**  Reading a table with such a column whose declared type has TEXT
affinity gives, for that column, a string of at most the declared number of bytes, possibly in a
union with null. -/
theorem C80_text_length_partial (cm : CaseMap) (rows : List Dict) (fs : List RType) (a : Attrs)
    (h : sqliteSchema cm rows = .ok (.struct fs a)) (i : Nat) (row : Dict) (f : RType)
    (hrow : rows[i]? = some row) (hf : fs[i]? = some f) (s : String) (w ds post : List Char)
    (hs : Dict.get? row "TYPE" = some (.str s))
    (hword : s.toList = w ++ '(' :: ds ++ ')' :: post)
    (hw : w ≠ []) (hw' : ∀ x ∈ w, x.isAlphanum = true ∨ x = '_')
    (hd : ds ≠ []) (hd' : ∀ x ∈ ds, x.isDigit = true) (hpos : decimalValue ds ≠ 0)
    (haf : HasAffinity (cm.upper (cm.upper (String.ofList w))) .text)
    (hne : cm.upper (String.ofList w) ≠ "")
    (haf' : HasAffinity (cm.upper s) .text) :
    ∃ b, b = RType.string (.int (decimalValue ds)) (.bool true) {} ∧
      (SameBody f b ∨ ∃ x, f = .union [.null {}, b] x) := by
  unfold sqliteSchema at h
  obtain ⟨cols, h1, h⟩ := bind_ok h
  obtain ⟨hl, hi⟩ := sqliteRows_index h1
  obtain ⟨c, hc, hadd⟩ := hi i row hrow
  have hoct := C80_declared_length_partial cm row c s w ds post hadd hs hword hw hw' hd hd'
    (.inl haf) hne
  have hpair : ∃ reg', Dialect.sqlite.toRecap cm cols newRegistry = (.ok (.struct fs a), reg') :=
    ⟨_, Prod.ext h rfl⟩
  obtain ⟨reg', hpair⟩ := hpair
  obtain ⟨fs', he, hfs⟩ := toRecap_ok hpair
  cases he
  obtain ⟨b, st, st', hp, hfield⟩ := (fieldsOf_index hfs).2 i c f hc hf
  have hb := parse_bare (d := .sqlite) hp
  simp only [Dialect.parse, stateless, Prod.mk.injEq] at hp
  obtain ⟨v, r, af, octet, precision, g1, g2, g3, g4, -, g6⟩ := sqliteParse_ok hp.1
  obtain ⟨name, dflt, type, _, _, _, n, -, -, k3, -, -, -, -, -, -, k10, -⟩ :=
    addInformationSchema_ok hadd
  rw [hs] at k3
  cases k3
  rw [k10] at g1
  cases g1
  have hr : r = s := by
    rcases declared_of_orElse g2 with ⟨-, h⟩ | ⟨h, -⟩
    · cases h; rfl
    · exfalso
      cases hl' : s.toList with
      | nil => rw [hl'] at hword; cases w <;> simp at hword
      | cons x l =>
        have : s = "" := by simpa [PyVal.truthy] using h
        subst this
        simp at hl'
  subst hr
  have := affinity_unique haf' g3
  subst this
  rw [hoct] at g4
  cases g4
  have hbe : b = .string (.int (decimalValue ds)) (.bool true) {} := by
    rw [g6]
    unfold orElse
    rw [if_pos (by simpa [PyVal.truthy] using hpos)]
  refine ⟨b, hbe, ?_⟩
  rcases fieldOf_shape hb (by rw [hbe]; rfl) (by rw [hbe]; simp) hfield with ⟨n, rfl⟩ | ⟨v, n, rfl⟩ |
    ⟨v, n, rfl⟩
  · exact .inl ⟨_, rfl⟩
  · subst hbe
    exact .inl ⟨_, rfl⟩
  · exact .inr ⟨_, rfl⟩

example : addInformationSchema asciiCase (pragmaRow "n" "varchar(80)" 0 0 .none) = .ok
    [("CID", .int 0), ("NAME", .str "n"), ("TYPE", .str "varchar(80)"), ("NOTNULL", .int 0),
      ("DFLT_VALUE", .none), ("PK", .int 0), ("COLUMN_NAME", .str "n"),
      ("IS_NULLABLE", .str "YES"), ("COLUMN_DEFAULT", .none), ("NUMERIC_PRECISION", .none),
      ("NUMERIC_SCALE", .none), ("CHARACTER_OCTET_LENGTH", .int 80)] := by
  decide +kernel

/-- **C80 is false** for types of several words: the length of `CHARACTER VARYING(10)` is lost,
because only the word before the parenthesis decides what the number means. -/
theorem C80_two_words_refuted :
    sqliteSchema asciiCase [pragmaRow "n" "CHARACTER VARYING(10)" 1 0 .none] =
      .ok (.struct [.string (.int 2147483647) (.bool true) { extra := [("name", .str "n")] }] {}) := by
  decide +kernel

end Recap
