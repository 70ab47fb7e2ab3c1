import Verif.EndToEndLiteSpec
import Verif.EndToEndThms
import Verif.ListedThms
import Verif.SqliteThms
import Verif.CommandsJsonThms

/-! # C150 for SQLite -/

set_option autoImplicit false

namespace Recap.EndToEnd

open Recap.Url Recap.Url.Spec Recap.Clients Recap.Clients.Spec Recap.Commands Recap.Commands.Spec Recap.Relational
open Recap.JsonText Recap.JsonText.Spec Recap.Values Recap.Spec Recap.Listed
open Recap.JsonData (Valid Interprets)
open Recap.Rows (StoredRow RowObject C143_rows_partial C143_null_refuted)
open Recap.PgArrays (Lower lower_ascii)

/-! ## The columns -/

theorem parameters_real {cm : CaseMap} {v p q o : PyVal} (h : typeParameters cm v = .ok (p, q, o)) :
    Real p ∧ Real q ∧ Real o := by
  unfold typeParameters at h
  split at h
  · split at h
    · cases h
    · split at h
      · cases h; exact ⟨trivial, trivial, trivial⟩
      · obtain ⟨a, -, h⟩ := bind_ok h
        cases a <;> cases h <;> exact ⟨trivial, trivial, trivial⟩
  · cases h

theorem info_real (c : LiteColumn) (i : Nat) : RealDict (c.info i) := by
  refine realDict_iff.mpr ⟨by simp [LiteColumn.info, Dict.keys], ?_⟩
  simp only [LiteColumn.info, List.mem_cons, List.not_mem_nil, or_false]
  rintro kv (rfl | rfl | rfl | rfl | rfl | rfl)
  · trivial
  · trivial
  · trivial
  · trivial
  · show Real (match c.default with | some s => .str s | .none => .none)
    cases c.default <;> trivial
  · trivial

theorem added_real {cm : CaseMap} {r c : Dict} (hr : RealDict r) (h : addInformationSchema cm r = .ok c) : RealDict c := by
  unfold addInformationSchema at h
  obtain ⟨notNull, h1, h⟩ := bind_ok h
  have key : ∀ isNotNull : PyVal, (do
      let name ← item r "NAME"
      let dflt ← item r "DFLT_VALUE"
      let type ← item r "TYPE"
      let x ← typeParameters cm type
      match x with
      | (precision, scale, octet) => pure (Dict.update r
        [("COLUMN_NAME", name), ("IS_NULLABLE", .str (if isNotNull.truthy then "NO" else "YES")),
          ("COLUMN_DEFAULT", dflt), ("NUMERIC_PRECISION", precision), ("NUMERIC_SCALE", scale),
          ("CHARACTER_OCTET_LENGTH", octet)])) = Except.ok c → RealDict c := by
    intro isNotNull h
    obtain ⟨name, h2, h⟩ := bind_ok h
    obtain ⟨dflt, h3, h⟩ := bind_ok h
    obtain ⟨type, h4, h⟩ := bind_ok h
    obtain ⟨⟨precision, scale, octet⟩, h5, h⟩ := bind_ok h
    cases h
    obtain ⟨p1, p2, p3⟩ := parameters_real h5
    refine RealDict.update hr (realDict_iff.mpr ⟨by simp [Dict.keys], ?_⟩)
    have g1 := RealDict.get? hr (item_ok h2)
    have g2 := RealDict.get? hr (item_ok h3)
    simp [g1, g2, p1, p2, p3, Real]
  simp only at h
  split at h
  · exact key _ h
  · obtain ⟨pk, -, h⟩ := bind_ok h
    exact key _ h

/-- What the converter is given for a column. -/
structure Given (cm : CaseMap) (k : LiteColumn) (c : Dict) : Prop where
  real : Real (.dict c)
  name : Dict.get? c "COLUMN_NAME" = some (.str k.name)
  type : Dict.get? c "TYPE" = some (.str k.type)
  nullable : cm.upper "YES" = "YES" → k.notNull = false → k.key = 0 → DeclaredNullable cm c
  required : cm.upper "NO" = "NO" → (k.notNull = true ∨ k.key ≠ 0) → ¬DeclaredNullable cm c

theorem given {cm : CaseMap} {k : LiteColumn} {i : Nat} {c : Dict} (h : addInformationSchema cm (k.info i) = .ok c) :
    Given cm k c := by
  obtain ⟨name, dflt, type, precision, scale, octet, n, g1, g2, g3, g4, g5, g6, g7, g8, g9, g10, -⟩ := addInformationSchema_ok h
  have e1 : name = .str k.name := by cases g1; rfl
  have e2 : type = .str k.type := by cases g3; rfl
  have hreq : Required (k.info i) ↔ k.notNull = true ∨ k.key ≠ 0 := by
    have h1 : Dict.get? (k.info i) "NOTNULL" = some (.int (if k.notNull then 1 else 0)) := rfl
    have h2 : Dict.get? (k.info i) "PK" = some (.int k.key) := rfl
    unfold Required
    rw [h1, h2]
    cases k.notNull <;> simp [PyVal.truthy]
  subst e1 e2
  refine ⟨added_real (info_real k i) h, g7, g10, fun hy h1 h2 => ?_, fun hno h1 => ?_⟩
  · rcases g5 with rfl | rfl
    · have := hreq.mp (g6.mp rfl)
      simp [h1, h2] at this
    · exact ⟨_, g8, hy⟩
  · rintro ⟨s, hs, hy⟩
    rw [g8] at hs
    cases hs
    have := g6.mpr (hreq.mpr h1)
    subst this
    rw [hno] at hy
    exact absurd hy (by decide)

theorem affinity_iff {cm : CaseMap} {k : LiteColumn} {c : Dict} (h : Given cm k c) {a : Affinity} :
    ColumnAffinity cm c a ↔ HasAffinity (cm.upper k.type) a := by
  constructor
  · rintro ⟨ty, s, h1, h2, h3⟩
    rw [h.type] at h1
    cases h1
    rcases h2 with h2 | ⟨h2, -⟩ <;> cases h2
    exact h3
  · exact fun ha => ⟨_, _, h.type, .inl rfl, ha⟩

/-! ## What is shown for the URL of a table -/

theorem lite_object {f : LiteFile} {o : Object} (ho : o ∈ f.objects) (ht : o.isTable = true) : ∃ t ∈ f.tables, o = t.object := by
  rcases List.mem_append.mp ho with h | h
  · obtain ⟨t, h1, rfl⟩ := List.mem_map.mp h
    exact ⟨t, h1, rfl⟩
  · obtain ⟨v, -, rfl⟩ := List.mem_map.mp h
    cases ht

theorem distinct_eq {file : List Object} (hd : Listed.Spec.Distinct file) {a b : Object} (ha : a ∈ file) (hb : b ∈ file)
    (h : a.name = b.name) : a = b := by
  have h1 := find_object hd ha
  have h2 := find_object hd hb
  rw [h] at h1
  exact Option.some.inj (h1.symm.trans h2)

theorem lite_shown {cm : CaseMap} {reserved : Chars → Bool} {files : String → LiteFile} {s : System} {confs : List Parts}
    {file : List Chars} {table : String} {strict : Bool} {f : Format} {o : Output} (hb : BehindLite cm reserved files s.world)
    (ho : OrdinaryLite s confs file table) (h : Commands.schema s (render (sqliteUrl (file ++ [table.toList]))) f strict = .ok o)
    {t : LiteTable} (ht : t ∈ (files (String.ofList (joinWith '/' file))).tables) (hn : t.name = table)
    (hs : SoundLite (files (String.ofList (joinWith '/' file))) t) :
    ∃ cols ty, cols.length = t.columns.length ∧ (∀ (i : Nat) k c, t.columns[i]? = some k → cols[i]? = some c → Given cm k c) ∧
      Dialect.sqlite.toRecap cm cols newRegistry = (.ok ty, newRegistry) ∧ Shows newRegistry ty f o := by
  obtain ⟨c', kw, src, ty, live, h1, h2, h3⟩ := schema_iff.mp h
  have hr := C90_sqlite_partial s.env s.mysqlArgs confs file table.toList strict ho.nonempty ho.names ho.known ho.plain
    ho.fileUrl ho.url
  rw [ho.urls] at h1
  split at hr
  · rw [hr.2] at h1; cases h1
  · obtain ⟨kwargs, hk, -, e⟩ := hr
    rw [e] at h1
    simp only [Except.ok.injEq, Prod.mk.injEq] at h1
    obtain ⟨rfl, rfl, rfl⟩ := h1
    have htext : text table.toList = .str table := by simp [text]
    rw [htext] at h2
    have hw := hb kwargs _ table hk
    generalize hF : files (String.ofList (joinWith '/' file)) = F at *
    cases hread : sqliteRead cm reserved F.objects table.toList with
    | error e =>
      rw [hread] at hw
      obtain ⟨e, he⟩ := hw
      rw [he] at h2
      cases h2
    | ok ty' =>
      rw [hread] at hw
      rw [hw] at h2
      cases h2
      have hmem : t.object ∈ F.objects := List.mem_append_left _ (List.mem_map_of_mem ht)
      have hls : table.toList ∈ sqliteLs F.objects := by
        refine List.mem_map.mpr ⟨t.object, List.mem_filter.mpr ⟨hmem, rfl⟩, ?_⟩
        show t.name.toList = _
        rw [hn]
      have hres : reserved table.toList = false := by
        cases hx : reserved table.toList with
        | false => rfl
        | true =>
          unfold sqliteRead at hread
          split at hread
          · rw [pragma_ordinary ho.identifier, hx] at hread
            cases hread
          · cases hread
      obtain ⟨o', ho', hot, hon, hr'⟩ := C127_sqlite_partial cm reserved F.objects hs.distinct table.toList hls ho.identifier hres
      have : o' = t.object := distinct_eq hs.distinct ho' hmem (by rw [hon]; show table.toList = t.name.toList; rw [hn])
      subst this
      rw [hread] at hr'
      cases hsch : sqliteSchema cm t.object.rows with
      | error e => rw [hsch] at hr'; cases hr'
      | ok ty'' =>
        rw [hsch] at hr'
        cases hr'
        unfold sqliteSchema at hsch
        obtain ⟨cols, g1, g2⟩ := bind_ok hsch
        obtain ⟨hl, hi⟩ := sqliteRows_index g1
        have hst := (C54_repeatable_partial cm .sqlite cols (fun _ h => nomatch h) newRegistry newRegistry).2
        refine ⟨cols, _, ?_, ?_, Prod.ext g2 hst, h3⟩
        · rw [hl]; simp [LiteTable.object]
        · intro i k c hk' hc
          obtain ⟨c', hc', hadd⟩ := hi i (k.info i) (by simp [LiteTable.object, List.getElem?_mapIdx, hk'])
          rw [hc] at hc'
          cases hc'
          exact given hadd

/-! ## The theorems -/

/-- The columns that the theorems are on. -/
theorem lite_plain {cm : CaseMap} {t : LiteTable} {cols : List Dict} (hl : cols.length = t.columns.length)
    (hg : ∀ (i : Nat) k c, t.columns[i]? = some k → cols[i]? = some c → Given cm k c) (hn : ∀ k ∈ t.columns, k.name ≠ "")
    (ha : ∀ k ∈ t.columns, ¬HasAffinity (cm.upper k.type) .numeric) : Rows.Plain cm .sqlite cols := by
  have key : ∀ c ∈ cols, ∃ k ∈ t.columns, Given cm k c := by
    intro c hc
    obtain ⟨i, hi, rfl⟩ := List.mem_iff_getElem.mp hc
    exact ⟨t.columns[i]'(by omega), List.getElem_mem _, hg i _ _ (List.getElem?_eq_getElem _) (List.getElem?_eq_getElem _)⟩
  refine ⟨fun c hc => ?_, fun c hc => ?_, fun _ c hc h => ?_, fun _ h => nomatch h⟩
  · obtain ⟨k, -, h⟩ := key c hc
    exact h.real
  · obtain ⟨k, hk, h⟩ := key c hc
    exact ⟨_, hn k hk, h.name⟩
  · obtain ⟨k, hk, h'⟩ := key c hc
    exact ha k hk ((affinity_iff h').mp h)

theorem lite_rows {cm : CaseMap} (hcm : Lower cm) (hyes : cm.upper "YES" = "YES") {t : LiteTable} {cols : List Dict} {ty : RType}
    {js : Dict} (hl : cols.length = t.columns.length)
    (hg : ∀ (i : Nat) k c, t.columns[i]? = some k → cols[i]? = some c → Given cm k c) (hp : Rows.Plain cm .sqlite cols)
    (hna : ∀ k ∈ t.columns, ¬HasAffinity (cm.upper k.type) .numeric)
    (ht : Dialect.sqlite.toRecap cm cols newRegistry = (.ok ty, newRegistry)) (hj : Json.fromRecap newRegistry ty = .ok js)
    {refs : String → PyVal → Prop} {xs : List Val} {o : Dict} (hr : Interprets refs js) (hx : LiteRow cm t xs)
    (ho : LiteObject true t xs o) (hk : ∀ (i : Nat) k, t.columns[i]? = some k → xs[i]? = some .null → k.key = 0)
    (ha : ∀ (i : Nat) k x, t.columns[i]? = some k → xs[i]? = some x → LiteAgrees cm k x) :
    Valid refs (.dict js) (.dict o) := by
  have col : ∀ (i : Nat) c x, cols[i]? = some c → xs[i]? = some x → ∃ k, t.columns[i]? = some k ∧ Given cm k c := by
    intro i c x hc _
    have hi := (List.getElem?_eq_some_iff.mp hc).1
    exact ⟨_, List.getElem?_eq_getElem (by omega), hg i _ c (List.getElem?_eq_getElem (by omega)) hc⟩
  refine C143_rows_partial cm .sqlite cols _ _ ty js refs xs o hcm ht hj hr ⟨by rw [hl, hx.1], fun i c x hc hxi => .inl ?_⟩
    (fun i c x hc hxi => ?_) hp (fun _ i c x hc hxi => ?_) (fun i c x hc hxi cfg h => nomatch h)
  · obtain ⟨k, h1, h2⟩ := col i c x hc hxi
    show Values.SQLite cm c x
    cases hx.2 i k x h1 hxi with
    | null h => exact .null (h2.nullable hyes h.1 (hk i k h1 hxi))
    | int a b d => exact .int (fun h => a ((affinity_iff h2).mp h)) (fun h => b ((affinity_iff h2).mp h)) d
    | real a => exact .real (fun h => a ((affinity_iff h2).mp h))
    | text h => exact .text h
    | blob h => exact .blob h
  · obtain ⟨k, h1, h2⟩ := col i c x hc hxi
    exact ⟨k.name, h2.name, ho i k x h1 hxi⟩
  · obtain ⟨k, h1, h2⟩ := col i c x hc hxi
    cases ha i k x h1 hxi with
    | null => exact .null (fun h => hna k (List.mem_of_getElem? h1) ((affinity_iff h2).mp h))
    | int h => exact .int ((affinity_iff h2).mpr h)
    | real h => exact .real ((affinity_iff h2).mpr h)
    | text h => exact .text (h.imp (affinity_iff h2).mpr (affinity_iff h2).mpr)
    | blob h => exact .blob (h.imp (affinity_iff h2).mpr (affinity_iff h2).mpr)

/-- **C150** for SQLite and `recap schema`, if columns that are null are left out (partial).  Missing: columns of NUMERIC
affinity and values that do not go with the affinity of their column (C143), and columns of the primary key that are null
(`C150_sqlite_key_refuted`), for which it is false. -/
theorem C150_sqlite_printed_partial {F : Floats} (hF : Lawful F) (cm : CaseMap) (hcm : Lower cm)
    (hyes : cm.upper "YES" = "YES") (reserved : Chars → Bool) (files : String → LiteFile) (s : System) (confs : List Parts)
    (file : List Chars) (table : String) (p : Printed) (hb : BehindLite cm reserved files s.world)
    (ho : OrdinaryLite s confs file table) (h : recapSchema F s (render (sqliteUrl (file ++ [table.toList]))) .json = .ok p)
    (t : LiteTable) (ht : t ∈ (files (String.ofList (joinWith '/' file))).tables) (hn : t.name = table)
    (hs : SoundLite (files (String.ofList (joinWith '/' file))) t)
    (ha : ∀ k ∈ t.columns, ¬HasAffinity (cm.upper k.type) .numeric) :
    ∃ text js, p = .text text ∧ IsJson F (.dict js) text ∧ (∀ v, IsJson F v text → v = .dict js) ∧
      ∀ refs xs o, Interprets refs js → LiteRow cm t xs → LiteObject true t xs o →
        (∀ (i : Nat) k, t.columns[i]? = some k → xs[i]? = some .null → k.key = 0) →
        (∀ (i : Nat) k x, t.columns[i]? = some k → xs[i]? = some x → LiteAgrees cm k x) → Valid refs (.dict js) (.dict o) := by
  unfold recapSchema cliSchema at h
  obtain ⟨o, h1, h⟩ := bind_ok h
  cases h
  obtain ⟨cols, ty, hl, hg, hty, hsh⟩ := lite_shown hb ho h1 ht hn hs
  have hp := lite_plain hl hg hs.named ha
  cases hsh with
  | json hj =>
    have hreal := printed hF (table_real hty hp hj)
    exact ⟨_, _, rfl, hreal, fun v hv => C122_unambiguous hv hreal,
      fun refs xs o hr hx ho' hk hag => lite_rows hcm hyes hl hg hp ha hty hj hr hx ho' hk hag⟩

/-- **C150** for SQLite and the gateway, if columns that are null are left out (partial, as above). -/
theorem C150_sqlite_answered_partial (cm : CaseMap) (hcm : Lower cm)
    (hyes : cm.upper "YES" = "YES") (reserved : Chars → Bool) (files : String → LiteFile) (s : System) (confs : List Parts)
    (file : List Chars) (table : String) (o : Output) (hb : BehindLite cm reserved files s.world)
    (ho : OrdinaryLite s confs file table)
    (h : getSchema s (render (sqliteUrl (file ++ [table.toList]))) (some "application/schema+json") = .ok o)
    (t : LiteTable) (ht : t ∈ (files (String.ofList (joinWith '/' file))).tables) (hn : t.name = table)
    (hs : SoundLite (files (String.ofList (joinWith '/' file))) t)
    (ha : ∀ k ∈ t.columns, ¬HasAffinity (cm.upper k.type) .numeric) :
    ∃ js, o = .dict js ∧
      ∀ refs xs o, Interprets refs js → LiteRow cm t xs → LiteObject true t xs o →
        (∀ (i : Nat) k, t.columns[i]? = some k → xs[i]? = some .null → k.key = 0) →
        (∀ (i : Nat) k x, t.columns[i]? = some k → xs[i]? = some x → LiteAgrees cm k x) → Valid refs (.dict js) (.dict o) := by
  rw [getSchema_asks .json, respond_ok] at h
  obtain ⟨cols, ty, hl, hg, hty, hsh⟩ := lite_shown hb ho h ht hn hs
  have hp := lite_plain hl hg hs.named ha
  cases hsh with
  | json hj => exact ⟨_, rfl, fun refs xs o hr hx ho' hk hag => lite_rows hcm hyes hl hg hp ha hty hj hr hx ho' hk hag⟩

/-- **C150 does not hold of SQLite: primary keys.**  SQLite stores null in a column of a primary key, unless the column is
declared INTEGER or the table WITHOUT ROWID.  The property of such a column is required, so a row that has null there is
never valid against what is answered, if columns that are null are left out. -/
theorem C150_sqlite_key_refuted (cm : CaseMap) (hno : cm.upper "NO" = "NO") (reserved : Chars → Bool)
    (files : String → LiteFile) (s : System) (confs : List Parts) (file : List Chars) (table : String) (o : Output)
    (hb : BehindLite cm reserved files s.world) (ho : OrdinaryLite s confs file table)
    (h : getSchema s (render (sqliteUrl (file ++ [table.toList]))) (some "application/schema+json") = .ok o)
    (t : LiteTable) (ht : t ∈ (files (String.ofList (joinWith '/' file))).tables) (hn : t.name = table)
    (hs : SoundLite (files (String.ofList (joinWith '/' file))) t)
    (ha : ∀ k ∈ t.columns, ¬HasAffinity (cm.upper k.type) .numeric) :
    ∃ js, o = .dict js ∧ ∀ refs xs o (i : Nat) k, LiteObject true t xs o → t.columns[i]? = some k → k.key ≠ 0 →
      xs[i]? = some .null → ¬Valid refs (.dict js) (.dict o) := by
  rw [getSchema_asks .json, respond_ok] at h
  obtain ⟨cols, ty, hl, hg, hty, hsh⟩ := lite_shown hb ho h ht hn hs
  have hp := lite_plain hl hg hs.named ha
  cases hsh with
  | json hj =>
    refine ⟨_, rfl, fun refs xs o i k ho' hk hkey hx hv => ?_⟩
    have hi := (List.getElem?_eq_some_iff.mp hk).1
    have hc : cols[i]? = some (cols[i]'(by omega)) := List.getElem?_eq_getElem _
    have hgk := hg i k _ hk hc
    obtain ⟨o', hconv, hobj⟩ := C116_relational_partial cm .sqlite cols ty newRegistry newRegistry hty hp.real hp.name
      (fun _ c hc v hv' hn' => hp.affinity rfl c hc ⟨_, _, hv', .inl rfl, hn'⟩) (fun _ h => nomatch h)
    cases convert_iff.mp hconv with
    | json hj' =>
      rw [hj] at hj'
      cases hj'
      obtain ⟨ys, hreq, hy⟩ := (hobj.required k.name).mpr ⟨_, List.mem_of_getElem? hc, hgk.name, hgk.required hno (.inr hkey)⟩
      obtain ⟨n, e, hin⟩ := (JsonData.valid_get hv hreq).required rfl _ rfl _ hy
      cases e
      rcases ho' i k _ hk hx with ⟨-, -, hnone⟩ | ⟨hne, -⟩
      · exact absurd hin (Dict.get?_eq_none_iff.mp hnone)
      · exact hne ⟨rfl, rfl⟩

/-! ## A file and a URL -/

/-- `CREATE TABLE users (email TEXT PRIMARY KEY, age INTEGER)`. -/
def liteUsers : LiteTable := { name := "users", columns := [{ name := "email", type := "TEXT", key := 1 }, { name := "age", type := "INTEGER" }] }

/-- Every file has this table and a view. -/
def liteFile : LiteFile := ⟨[liteUsers], ["adults"]⟩

/-- Recap, with `sqlite:///data` configured. -/
def liteSystem : System where
  env := asciiEnv
  mysqlArgs := mysqlCore
  urls := [render (sqliteUrl ["data".toList])]
  world := {
    children := fun _ _ _ => .ok []
    type := fun c _ src =>
      match c, src with
      | .sqlite, .sqliteTable (.str table) =>
        match sqliteRead asciiCase (fun _ => false) liteFile.objects table.toList with
        | .ok t => .ok (t, newRegistry)
        | .error _ => .error .valueError
      | _, _ => .error .valueError }

theorem lite_behind : BehindLite asciiCase (fun _ => false) (fun _ => liteFile) liteSystem.world := by
  intro kwargs file table _
  cases h : sqliteRead asciiCase (fun _ => false) liteFile.objects table.toList with
  | ok t => simp only [liteSystem, h]
  | error e => exact ⟨.valueError, by simp only [liteSystem, h]⟩

theorem lite_ordinary : OrdinaryLite liteSystem [sqliteUrl ["data".toList]] ["data".toList, "x.db".toList] "users" where
  urls := rfl
  known := by
    intro c hc
    rw [List.mem_singleton.mp hc]
    constructor <;> decide +kernel
  plain := by
    intro c hc _
    rw [List.mem_singleton.mp hc]
    decide
  nonempty := by decide
  names := by decide +kernel
  fileUrl := by constructor <;> decide +kernel
  url := by constructor <;> decide +kernel
  identifier := by decide +kernel

theorem lite_sound : SoundLite liteFile liteUsers where
  distinct := by
    unfold Listed.Spec.Distinct
    decide +kernel
  named := by simp [liteUsers]

theorem lite_text : HasAffinity (asciiCase.upper "TEXT") .text := by
  obtain ⟨r, h1, h2⟩ := getAffinity_ok (cm := asciiCase) (v := .str "TEXT") (a := .text) rfl
  cases h1
  exact h2

theorem lite_integer : HasAffinity (asciiCase.upper "INTEGER") .integer := by
  obtain ⟨r, h1, h2⟩ := getAffinity_ok (cm := asciiCase) (v := .str "INTEGER") (a := .integer) rfl
  cases h1
  exact h2

theorem lite_affinities : ∀ k ∈ liteUsers.columns, ¬HasAffinity (asciiCase.upper k.type) .numeric := by
  intro k hk h
  simp only [liteUsers, List.mem_cons, List.not_mem_nil, or_false] at hk
  rcases hk with rfl | rfl
  · exact absurd (affinity_unique h lite_text) (by decide)
  · exact absurd (affinity_unique h lite_integer) (by decide)

/-- What is printed for `sqlite:///data/x.db/users` is a schema against which the rows are valid, of which
`{"email": "a@b"}` is one. -/
example {F : Floats} (hF : Lawful F) :
    ∃ p text js, recapSchema F liteSystem "sqlite:///data/x.db/users".toList .json = .ok p ∧ p = .text text ∧
      IsJson F (.dict js) text ∧ ∀ refs, Interprets refs js → Valid refs (.dict js) (.dict [("email", .str "a@b")]) := by
  rw [show "sqlite:///data/x.db/users".toList = render (sqliteUrl (["data".toList, "x.db".toList] ++ ["users".toList])) by
    decide +kernel]
  obtain ⟨p, h⟩ : ∃ p, recapSchema F liteSystem (render (sqliteUrl (["data".toList, "x.db".toList] ++ ["users".toList]))) .json =
    .ok p := ⟨_, rfl⟩
  obtain ⟨text, js, e, hj, -, hv⟩ := C150_sqlite_printed_partial hF asciiCase lower_ascii (by decide +kernel) (fun _ => false)
    (fun _ => liteFile) liteSystem _ _ "users" p lite_behind lite_ordinary h liteUsers (List.mem_singleton.mpr rfl) rfl lite_sound
    lite_affinities
  refine ⟨p, text, js, h, e, hj, fun refs hr => hv refs [.str "a@b", .null] _ hr ⟨rfl, ?_⟩ ?_ ?_ ?_⟩
  · intro i c x hc hx
    match i, hc, hx with
    | 0, hc, hx => cases hc; cases hx; exact .text (by decide +kernel)
    | 1, hc, hx => cases hc; cases hx; exact .null ⟨rfl, .inl rfl⟩
    | _ + 2, hc, _ => cases hc
  · intro i c x hc hx
    match i, hc, hx with
    | 0, hc, hx => cases hc; cases hx; exact .inr ⟨nofun, _, rfl, .str⟩
    | 1, hc, hx => cases hc; cases hx; exact .inl ⟨rfl, rfl, rfl⟩
    | _ + 2, hc, _ => cases hc
  · intro i c hc hx
    match i, hc, hx with
    | 0, hc, hx => cases hx
    | 1, hc, hx => cases hc; rfl
    | _ + 2, hc, _ => cases hc
  · intro i c x hc hx
    match i, hc, hx with
    | 0, hc, hx => cases hc; cases hx; exact .text (.inl lite_text)
    | 1, hc, hx => cases hc; cases hx; exact .null
    | _ + 2, hc, _ => cases hc

/-- The hypotheses of `C150_sqlite_answered_partial` and `C150_sqlite_key_refuted` are met by the same request, and the
row `(NULL, NULL)` is one of the table. -/
example : (∃ o, getSchema liteSystem (render (sqliteUrl (["data".toList, "x.db".toList] ++ ["users".toList])))
      (some "application/schema+json") = .ok o) ∧
    LiteRow asciiCase liteUsers [.null, .null] ∧ LiteObject true liteUsers [.null, .null] [] := by
  refine ⟨⟨_, rfl⟩, ⟨rfl, fun i c x hc hx => ?_⟩, fun i c x hc hx => ?_⟩
  · match i, hc, hx with
    | 0, hc, hx => cases hc; cases hx; exact .null ⟨rfl, .inr ⟨rfl, fun h => absurd h.1 (by decide +kernel)⟩⟩
    | 1, hc, hx => cases hc; cases hx; exact .null ⟨rfl, .inl rfl⟩
    | _ + 2, hc, _ => cases hc
  · match i, hc, hx with
    | 0, hc, hx => cases hc; cases hx; exact .inl ⟨rfl, rfl, rfl⟩
    | 1, hc, hx => cases hc; cases hx; exact .inl ⟨rfl, rfl, rfl⟩
    | _ + 2, hc, _ => cases hc

/-- What is printed for the table. -/
def liteSchema : Dict :=
  [("type", .str "object"), ("properties", .dict [("email", .dict [("type", .str "string")]),
      ("age", .dict [("default", .none), ("type", .str "integer")])]), ("required", .list [.str "email"])]

/-- **C150 does not hold of SQLite**, however null is written: the row `(NULL, 7)` of the table is not valid. -/
theorem C150_sqlite_refuted {F : Floats} (hF : Lawful F) (leave : Bool) :
    ¬LitePrintedForRows F asciiCase (fun _ => false) leave := by
  intro hall
  have h : recapSchema F liteSystem (render (sqliteUrl (["data".toList, "x.db".toList] ++ ["users".toList]))) .json =
    .ok (.text (dumps F .pretty (.dict liteSchema))) := rfl
  obtain ⟨text, js, e, hj, hun, hv⟩ := hall (fun _ => liteFile) liteSystem _ _ "users" _ lite_behind lite_ordinary h liteUsers
    (List.mem_singleton.mpr rfl) rfl lite_sound
  cases e
  cases hun _ (printed hF (show Real (.dict liteSchema) by simp [liteSchema, Real, RealPairs, RealAll]))
  have hr : Interprets (fun _ _ => False) liteSchema := by
    intro alias s hs
    cases hs
  have hrow : LiteRow asciiCase liteUsers [.null, .int 7] := by
    refine ⟨rfl, fun i c x hc hx => ?_⟩
    match i, hc, hx with
    | 0, hc, hx => cases hc; cases hx; exact .null ⟨rfl, .inr ⟨rfl, fun h => absurd h.1 (by decide +kernel)⟩⟩
    | 1, hc, hx =>
      cases hc; cases hx
      exact .int (fun h => absurd (affinity_unique h lite_integer) (by decide))
        (fun h => absurd (affinity_unique h lite_integer) (by decide)) (by simp only [Avro.Spec.IntValue]; decide +kernel)
    | _ + 2, hc, _ => cases hc
  cases leave with
  | true =>
    have := hv _ _ [("age", .int 7)] hr hrow (by
      intro i c x hc hx
      match i, hc, hx with
      | 0, hc, hx => cases hc; cases hx; exact .inl ⟨rfl, rfl, rfl⟩
      | 1, hc, hx => cases hc; cases hx; exact .inr ⟨nofun, _, rfl, .int⟩
      | _ + 2, hc, _ => cases hc)
    obtain ⟨n, e, hin⟩ := (JsonData.valid_get this (k := "required") rfl).required rfl _ rfl _ List.mem_cons_self
    cases e
    simp [Dict.keys] at hin
  | false =>
    have := hv _ _ [("email", .none), ("age", .int 7)] hr hrow (by
      intro i c x hc hx
      match i, hc, hx with
      | 0, hc, hx => cases hc; cases hx; exact .inr ⟨nofun, _, rfl, .null⟩
      | 1, hc, hx => cases hc; cases hx; exact .inr ⟨nofun, _, rfl, .int⟩
      | _ + 2, hc, _ => cases hc)
    have := (JsonData.valid_get this (k := "properties") rfl).properties rfl
    rw [JsonData.Properties, JsonData.propertiesAll_iff] at this
    have := this _ List.mem_cons_self _ .none rfl rfl
    obtain ⟨s, e⟩ := JsonData.kind_string ((JsonData.valid_get this (k := "type") rfl).type rfl)
    cases e

end Recap.EndToEnd
