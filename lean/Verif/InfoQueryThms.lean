import Verif.InfoQuerySpec
import Verif.RelationalThms

/-!
# A MySQL or Snowflake table is read with exactly its columns (C146)
-/

set_option autoImplicit false

namespace Recap.InfoQuery

open Recap.Relational Recap.InfoQuery.Spec

/-! ## Lemmas -/

theorem set_fresh {d : Dict} {k : String} {v : PyVal} (h : k ∉ Dict.keys d) : Dict.set d k v = d ++ [(k, v)] := by
  induction d with
  | nil => rfl
  | cons kv d ih =>
    obtain ⟨k', v'⟩ := kv
    simp only [Dict.keys, List.map_cons, List.mem_cons, not_or] at h
    simp only [Dict.set, List.cons_append]
    rw [if_neg (fun e => h.1 e.symm)]
    rw [ih h.2]

theorem foldl_set {kvs d : Dict} (h : (Dict.keys d ++ Dict.keys kvs).Nodup) :
    kvs.foldl (fun d kv => Dict.set d kv.1 kv.2) d = d ++ kvs := by
  induction kvs generalizing d with
  | nil => simp
  | cons kv kvs ih =>
    obtain ⟨k, v⟩ := kv
    have hk : k ∉ Dict.keys d := by
      intro hm
      rw [List.nodup_append] at h
      exact h.2.2 k hm k (by simp [Dict.keys]) rfl
    simp only [List.foldl_cons]
    rw [set_fresh hk, ih]
    · simp
    · simpa [Dict.keys] using h

theorem rowDict_eq {cm : CaseMap} {view : View} (hw : WellFormed view) (hc : Capitals cm view) (r : InfoRow) :
    rowDict cm view r = cells view r := by
  have hh : headers cm view = view.names := by
    unfold headers
    rw [List.map_congr_left (g := id) (fun n hn => hc n hn), List.map_id]
  have hz : ∀ l : List String, l.zip (l.map r.cell) = l.map fun n => (n, r.cell n) := by
    intro l
    induction l with
    | nil => rfl
    | cons n l ih => simp [ih]
  unfold rowDict zipDict cells
  rw [hh, hz]
  refine (foldl_set ?_).trans (List.nil_append _)
  simpa [Dict.keys, Function.comp_def] using hw.names

theorem get_cells {view : View} {r : InfoRow} {k : String} {v : PyVal} (h : Dict.get? (cells view r) k = some v) :
    v = r.cell k := by
  have := Dict.mem_of_get? h
  simp only [cells, List.mem_map] at this
  obtain ⟨n, -, e⟩ := this
  cases e
  rfl

theorem answer_columns {same : String → String → Bool} {view : View} {catalog schema table : String} {n : Names}
    {out : List InfoRow} (hw : WellFormed view) (hm : Means same view catalog schema table n)
    (h : Answer same view catalog schema table out) : Columns view n out := by
  have hmem : ∀ r, r ∈ out ↔ ColumnOf view n r := by
    intro r
    rw [h.rows.mem_iff, selected, List.mem_filter]
    simp only [Bool.and_eq_true]
    constructor
    · rintro ⟨h1, ⟨h2, h3⟩, h4⟩
      exact ⟨h1, (hm r h1).mp ⟨h2, h3, h4⟩⟩
    · rintro ⟨h1, h2⟩
      obtain ⟨k1, k2, k3⟩ := (hm r h1).mpr h2
      exact ⟨h1, ⟨k1, k2⟩, k3⟩
  refine ⟨?_, hmem⟩
  have hd : out.Pairwise fun a b =>
      ¬(a.catalog = b.catalog ∧ a.schema = b.schema ∧ a.table = b.table ∧ a.position = b.position) := by
    refine (h.rows.pairwise_iff ?_).mpr (hw.positions.filter _)
    rintro a b hab ⟨h1, h2, h3, h4⟩
    exact hab ⟨h1.symm, h2.symm, h3.symm, h4.symm⟩
  refine List.Pairwise.imp_of_mem ?_ (h.order.and hd)
  rintro a b ha hb ⟨h1, h2⟩
  obtain ⟨-, a1, a2, a3⟩ := (hmem a).mp ha
  obtain ⟨-, b1, b2, b3⟩ := (hmem b).mp hb
  have : a.position ≠ b.position := fun e => h2 ⟨a1.trans b1.symm, a2.trans b2.symm, a3.trans b3.symm, e⟩
  omega

theorem columns_unique {view : View} {n : Names} {cs cs' : List InfoRow} (h : Columns view n cs) (h' : Columns view n cs') :
    cs = cs' := by
  have hm : ∀ r, r ∈ cs ↔ r ∈ cs' := fun r => (h.all r).trans (h'.all r).symm
  have ho := h.order
  have ho' := h'.order
  clear h h'
  induction cs generalizing cs' with
  | nil =>
    cases cs' with
    | nil => rfl
    | cons b cs' => exact absurd ((hm b).mpr (by simp)) (by simp)
  | cons a cs ih =>
    cases cs' with
    | nil => exact absurd ((hm a).mp (by simp)) (by simp)
    | cons b cs' =>
      rw [List.pairwise_cons] at ho ho'
      have hab : a = b := by
        rcases List.mem_cons.mp ((hm a).mp (by simp)) with e | ha
        · exact e
        · rcases List.mem_cons.mp ((hm b).mpr (by simp)) with e | hb
          · exact e.symm
          · have h1 := ho.1 b hb
            have h2 := ho'.1 a ha
            omega
      subst hab
      congr 1
      refine ih (fun r => ?_) ho.2 ho'.2
      have hr := hm r
      simp only [List.mem_cons] at hr
      constructor
      · intro hr'
        rcases hr.mp (.inr hr') with rfl | h
        · have := ho.1 r hr'; omega
        · exact h
      · intro hr'
        rcases hr.mpr (.inr hr') with rfl | h
        · have := ho'.1 r hr'; omega
        · exact h

/-! ## The type -/

/-- **C146.** Whatever is in the view of the server, in whatever order, and however the server spells the names of the
columns of the view: the type that is read of a table has one field for each column of the table that the server means
by the names, and for no other, in the order of their positions.  Each field has the name of its column, is nullable
exactly when the column is, and is what the converter makes of the column alone. -/
theorem C146_columns (cm : CaseMap) (d : Dialect) (hd : d = .mysql ∨ d = .snowflake) (same : String → String → Bool)
    (view : View) (catalog schema table : String) (n : Names) (out : List InfoRow) (reg reg' : Registry) (t : RType)
    (hw : WellFormed view) (hc : Capitals cm view) (hm : Means same view catalog schema table n)
    (h : Answer same view catalog schema table out) (ht : clientSchema cm d view out reg = (.ok t, reg')) :
    ∃ cs fs, Columns view n cs ∧ t = .struct fs {} ∧ fs.length = cs.length ∧
      ∀ (i : Nat) c f, cs[i]? = some c → fs[i]? = some f →
        Dict.get? f.attrs.extra "name" = some (c.cell "COLUMN_NAME") ∧
        (f.isNullable = true ↔ ∃ s, c.cell "IS_NULLABLE" = .str s ∧ cm.upper s = "YES") ∧
        ∀ reg1, ∃ reg2, d.toRecap cm [cells view c] reg1 = (.ok (.struct [f] {}), reg2) := by
  have hcols := answer_columns hw hm h
  have hmap : out.map (rowDict cm view) = out.map (cells view) :=
    List.map_congr_left fun r _ => rowDict_eq hw hc r
  unfold clientSchema at ht
  rw [hmap] at ht
  obtain ⟨fs, rfl, h1, h2⟩ := C48_fields_match_columns cm d _ _ _ _ ht
  rw [List.length_map] at h1
  refine ⟨out, fs, hcols, rfl, h1, fun i c f hci hfi => ?_⟩
  have hci' : (out.map (cells view))[i]? = some (cells view c) := by rw [List.getElem?_map, hci]; rfl
  obtain ⟨name, k1, k2⟩ := h2 i _ f hci' hfi
  obtain ⟨m1, m2⟩ := C49_nullability_partial cm d _ _ _ fs _ ht i _ f hci' hfi
  obtain ⟨fs', heq, hf⟩ := toRecap_ok ht
  injection heq with heq _
  subst heq
  obtain ⟨-, hi⟩ := fieldsOf_index hf
  obtain ⟨b, s, s', g1, g2⟩ := hi i _ f hci' hfi
  obtain ⟨nn, dflt, nm, q1, -, -, -⟩ := fieldOf_ok g2
  refine ⟨by rw [k2, get_cells k1], ⟨fun hn => ?_, ?_⟩, fun reg1 => ?_⟩
  · rcases m2 hn with ⟨s, hs, hy⟩ | ⟨e, -⟩ | ⟨cfg, e, -⟩
    · exact ⟨s, (get_cells hs).symm, hy⟩
    · rcases hd with rfl | rfl <;> cases e
    · rcases hd with rfl | rfl <;> cases e
  · rintro ⟨s, hs, hy⟩
    refine m1 ⟨s, ?_, hy⟩
    rw [q1]
    exact congrArg some ((get_cells q1).trans hs)
  · have key : ∀ (p : Dict → Except PyErr RType), (stateless p) (cells view c) s = (.ok b, s') →
        ∃ reg2, Relational.toRecap cm (stateless p) [cells view c] reg1 = (.ok (.struct [f] {}), reg2) := by
      intro p hp
      simp only [stateless, Prod.mk.injEq] at hp
      refine ⟨reg1, ?_⟩
      simp [Relational.toRecap, fieldsOf, stateless, hp.1, g2]
    rcases hd with rfl | rfl
    · exact key _ g1
    · exact key _ g1

/-- **C146**: nothing else about the server matters.  Two servers with the same rows, in any order, that spell the names of
the columns of the view in different ways and compare names in different ways give the same type or the same exception,
if the names mean the same table for both. -/
theorem C146_deterministic (cm : CaseMap) (d : Dialect) (same same' : String → String → Bool) (view view' : View)
    (catalog schema table catalog' schema' table' : String) (n : Names) (out out' : List InfoRow) (reg : Registry)
    (hw : WellFormed view) (hw' : WellFormed view') (hc : Capitals cm view) (hc' : Capitals cm view')
    (hm : Means same view catalog schema table n) (hm' : Means same' view' catalog' schema' table' n)
    (hn : view'.names = view.names) (hr : view'.rows.Perm view.rows)
    (h : Answer same view catalog schema table out) (h' : Answer same' view' catalog' schema' table' out') :
    clientSchema cm d view out reg = clientSchema cm d view' out' reg := by
  have h1 := answer_columns hw hm h
  have h2 := answer_columns hw' hm' h'
  have h3 : Columns view n out' := by
    refine ⟨h2.order, fun r => (h2.all r).trans ?_⟩
    unfold ColumnOf
    rw [hr.mem_iff]
  have := columns_unique h1 h3
  subst this
  unfold clientSchema
  congr 1
  refine List.map_congr_left fun r _ => ?_
  rw [rowDict_eq hw hc, rowDict_eq hw' hc']
  unfold cells
  rw [hn]

/-- **C146** for MySQL, where there is only the catalog `def`. -/
theorem C146_mysql (cm : CaseMap) (same : String → String → Bool) (view : View) (schema table : String)
    (schema' table' : String) (out : List InfoRow) (reg reg' : Registry) (t : RType)
    (hw : WellFormed view) (hc : Capitals cm view) (hm : Means same view "def" schema table ⟨"def", schema', table'⟩)
    (h : MysqlAnswer same view schema table out) (ht : clientSchema cm .mysql view out reg = (.ok t, reg')) :
    ∃ cs fs, Columns view ⟨"def", schema', table'⟩ cs ∧ t = .struct fs {} ∧ fs.length = cs.length ∧
      ∀ (i : Nat) c f, cs[i]? = some c → fs[i]? = some f →
        Dict.get? f.attrs.extra "name" = some (c.cell "COLUMN_NAME") ∧
        (f.isNullable = true ↔ ∃ s, c.cell "IS_NULLABLE" = .str s ∧ cm.upper s = "YES") ∧
        ∀ reg1, ∃ reg2, Dialect.mysql.toRecap cm [cells view c] reg1 = (.ok (.struct [f] {}), reg2) :=
  C146_columns cm .mysql (.inl rfl) same view "def" schema table _ out reg reg' t hw hc hm h ht

/-- **C146**: for a name that no table has, reading gives the type without fields, not an exception. -/
theorem C146_missing (cm : CaseMap) (d : Dialect) (hd : d = .mysql ∨ d = .snowflake) (same : String → String → Bool)
    (view : View) (catalog schema table : String) (out : List InfoRow) (reg : Registry)
    (hm : ∀ r ∈ view.rows, same r.catalog catalog = false ∨ same r.schema schema = false ∨ same r.table table = false)
    (h : Answer same view catalog schema table out) : (clientSchema cm d view out reg).1 = .ok (.struct [] {}) := by
  have he : selected same view table schema catalog = [] := by
    unfold selected
    rw [List.filter_eq_nil_iff]
    intro r hr
    rcases hm r hr with e | e | e <;> simp [e]
  have ho : out = [] := List.Perm.eq_nil (he ▸ h.rows)
  subst ho
  rcases hd with rfl | rfl <;> rfl

/-! ## A server to which the theorems apply -/

/-- A column of the example. -/
def exampleRow (table : String) (position : Int) (name type nullable : String) : InfoRow where
  catalog := "def"
  schema := "shop"
  table := table
  position := position
  cell k :=
    if k = "COLUMN_NAME" then .str name
    else if k = "DATA_TYPE" then .str type
    else if k = "IS_NULLABLE" then .str nullable
    else if k = "TABLE_NAME" then .str table
    else if k = "CHARACTER_OCTET_LENGTH" then .int 40
    else .none

/-- A server with two tables whose columns are mixed up, that spells the names of the view in small letters. -/
def exampleView : View where
  names := ["TABLE_NAME", "COLUMN_NAME", "COLUMN_DEFAULT", "IS_NULLABLE", "DATA_TYPE", "CHARACTER_OCTET_LENGTH",
    "NUMERIC_PRECISION", "NUMERIC_SCALE", "DATETIME_PRECISION"]
  spelling := asciiCase.lower
  rows := [exampleRow "orders" 2 "note" "varchar" "YES", exampleRow "items" 1 "sku" "varchar" "NO",
    exampleRow "orders" 1 "id" "bigint" "NO"]

/-- The server compares names without regard to case. -/
def exampleSame (a b : String) : Bool := asciiCase.lower a == asciiCase.lower b

theorem example_wellFormed : WellFormed exampleView :=
  ⟨by decide +kernel, by simp [exampleView, exampleRow]⟩

theorem example_capitals : Capitals asciiCase exampleView := by
  unfold Capitals
  decide +kernel

theorem example_means : Means exampleSame exampleView "def" "shop" "Orders" ⟨"def", "shop", "orders"⟩ := by
  intro r hr
  have hr' : r = exampleRow "orders" 2 "note" "varchar" "YES" ∨ r = exampleRow "items" 1 "sku" "varchar" "NO" ∨
      r = exampleRow "orders" 1 "id" "bigint" "NO" := by simpa [exampleView] using hr
  rcases hr' with rfl | rfl | rfl <;> simp only [exampleRow] <;> decide +kernel

theorem example_answer : MysqlAnswer exampleSame exampleView "shop" "Orders"
    [exampleRow "orders" 1 "id" "bigint" "NO", exampleRow "orders" 2 "note" "varchar" "YES"] := by
  have hs : selected exampleSame exampleView "Orders" "shop" "def" =
      [exampleRow "orders" 2 "note" "varchar" "YES", exampleRow "orders" 1 "id" "bigint" "NO"] := by
    have k1 : exampleSame "orders" "Orders" = true := by decide +kernel
    have k2 : exampleSame "items" "Orders" = false := by decide +kernel
    have k3 : exampleSame "shop" "shop" = true := by decide +kernel
    have k4 : exampleSame "def" "def" = true := by decide +kernel
    simp [selected, exampleView, exampleRow, k1, k2, k3, k4]
  refine ⟨?_, by simp [exampleRow]⟩
  rw [mysqlCatalog, hs]
  exact .swap _ _ []

/-- The columns of `orders`, and not the one of `items`, in their order. -/
example : (clientSchema asciiCase .mysql exampleView
    [exampleRow "orders" 1 "id" "bigint" "NO", exampleRow "orders" 2 "note" "varchar" "YES"] newRegistry).1 =
    .ok (.struct
      [.int (.int 64) (.bool true) { extra := [("name", .str "id")] },
        .union [.null {}, .string (.int 40) (.bool true) {}] { extra := [("default", .none), ("name", .str "note")] }] {}) := by
  decide +kernel

example (reg : Registry) (t : RType) := C146_mysql asciiCase exampleSame exampleView "shop" "Orders" "shop" "orders" _ newRegistry reg t
  example_wellFormed example_capitals example_means example_answer

/-- Why `Means` is needed: if the server takes two tables for the same (here, the names of all tables), the type has the
columns of both. -/
theorem C146_confused_refuted :
    ∃ (same : String → String → Bool) (view : View) (out : List InfoRow) (f g : RType),
      (∀ a, same a a = true) ∧ WellFormed view ∧ Capitals asciiCase view ∧ Answer same view "def" "shop" "Orders" out ∧
      (clientSchema asciiCase .mysql view out newRegistry).1 = .ok (.struct [f, g] {}) ∧
      Dict.get? f.attrs.extra "name" = some (.str "id") ∧ Dict.get? g.attrs.extra "name" = some (.str "sku") ∧
      ∀ r, ColumnOf view ⟨"def", "shop", "Orders"⟩ r → r.cell "COLUMN_NAME" = .str "id" := by
  refine ⟨exampleSame, { exampleView with rows := [exampleRow "Orders" 1 "id" "bigint" "NO", exampleRow "orders" 2 "sku" "varchar" "NO"] },
    [exampleRow "Orders" 1 "id" "bigint" "NO", exampleRow "orders" 2 "sku" "varchar" "NO"],
    .int (.int 64) (.bool true) { extra := [("name", .str "id")] },
    .string (.int 40) (.bool true) { extra := [("name", .str "sku")] },
    fun a => by simp [exampleSame], ⟨by decide +kernel, by simp [exampleRow]⟩, ?_, ⟨?_, by simp [exampleRow]⟩, by decide +kernel,
    by decide +kernel, by decide +kernel, ?_⟩
  · unfold Capitals
    decide +kernel
  · have k1 : exampleSame "orders" "Orders" = true := by decide +kernel
    have k2 : exampleSame "Orders" "Orders" = true := by decide +kernel
    have k3 : exampleSame "shop" "shop" = true := by decide +kernel
    have k4 : exampleSame "def" "def" = true := by decide +kernel
    simp [selected, exampleRow, k1, k2, k3, k4]
  · rintro r ⟨h1, -, -, h4⟩
    rcases (by simpa using h1 : r = exampleRow "Orders" 1 "id" "bigint" "NO" ∨ r = exampleRow "orders" 2 "sku" "varchar" "NO") with rfl | rfl
    · rfl
    · exact absurd h4 (by simp [exampleRow])

end Recap.InfoQuery
