import Verif.EndToEndLemmas
import Verif.CommandsJsonThms
import Verif.AvroRowsThms

/-!
# C150: what is shown for the URL of a table describes the rows of that table

The specification is in `EndToEndSpec.lean`.
-/

set_option autoImplicit false

namespace Recap.EndToEnd

open Recap.Url Recap.Url.Spec Recap.Clients Recap.Clients.Spec Recap.Commands Recap.Commands.Spec Recap.Relational
open Recap.InfoQuery Recap.InfoQuery.Spec Recap.JsonText Recap.JsonText.Spec Recap.Spec
open Recap.JsonData (Valid Interprets)
open Recap.Rows (StoredRow RowObject Enforced C143_rows_partial C143_null_refuted)
open Recap.AvroRows (Expressible Within C149_rows_partial C149_required_refuted)
open Recap.AvroData (Datum)
open Recap.PgArrays (Lower lower_ascii)

theorem rows_valid {cm : CaseMap} {c : Client} {d : Dialect} {cols : List Dict} {t : RType} {live : Registry} {js : Dict}
    (hcm : Lower cm) (hd : Speaks c d) (hp : Rows.Plain cm d cols) (ht : d.toRecap cm cols newRegistry = (.ok t, live))
    (hs : Json.fromRecap live t = .ok js) : RowsValid cm d true cols js := by
  intro refs xs o hr hx ho
  refine C143_rows_partial cm d cols newRegistry live t js refs xs o hcm ht hs hr hx ho hp ?_ ?_
  · intro e; subst e; cases hd
  · intro i c x _ _ cfg e; subst e; cases hd

/-- **C150** for `recap schema`, if columns that are null are left out. -/
theorem C150_printed {F : Floats} (hF : Lawful F) (cm : CaseMap) (hcm : Lower cm) : PrintedForRows F cm true := by
  intro S s confs u c d catalog schema table p hb ho hu hd h
  unfold recapSchema cliSchema at h
  obtain ⟨o, h1, h⟩ := bind_ok h
  cases h
  obtain ⟨kwargs, hk, h2⟩ := shown_table hb ho hu hd h1
  refine ⟨kwargs, hk, fun cols hs hc => ?_⟩
  obtain ⟨hp, t, live, ht, hsh⟩ := h2 cols hs hc
  cases hsh with
  | json hj =>
    have hreal := printed hF (table_real ht hp hj)
    exact ⟨_, _, rfl, hreal, fun v hv => C122_unambiguous hv hreal, rows_valid hcm hd hp ht hj⟩

/-- **C150** for the gateway, if columns that are null are left out. -/
theorem C150_answered (cm : CaseMap) (hcm : Lower cm) : AnsweredForRows cm true := by
  intro S s confs u c d catalog schema table o hb ho hu hd h
  rw [getSchema_asks .json, respond_ok] at h
  obtain ⟨kwargs, hk, h2⟩ := shown_table hb ho hu hd h
  refine ⟨kwargs, hk, fun cols hs hc => ?_⟩
  obtain ⟨hp, t, live, ht, hsh⟩ := h2 cols hs hc
  cases hsh with
  | json hj => exact ⟨_, rfl, rows_valid hcm hd hp ht hj⟩

/-- **C150**: if the types of all columns can be read, then something is printed. -/
theorem C150_printed_always (F : Floats) (cm : CaseMap) (S : Servers) (s : System) (confs : List Parts) (u : Parts) (c : Client)
    (d : Dialect) (catalog schema table : String) (hb : Behind cm S s.world) (ho : Ordinary s confs u)
    (hu : TableUrl u c catalog schema table) (hd : Speaks c d) :
    ∃ kwargs, Connects confs u c kwargs ∧ ∀ cols t live, Sound cm (S.view c kwargs) →
      TableOf S c kwargs catalog schema table cols → d.toRecap cm cols newRegistry = (.ok t, live) →
      ∃ p, recapSchema F s (render u) .json = .ok p := by
  have hr := reads (strict := false) ho hu
  rw [if_neg (by simp)] at hr
  obtain ⟨kwargs, e, hk⟩ := hr
  refine ⟨kwargs, hk, ?_⟩
  rintro _ t live hs ⟨n, rows, hm, hc, rfl⟩ ht
  have hp := table_plain hd hs hc
  obtain ⟨js, hj, -⟩ := C116_relational_partial cm d _ t newRegistry live ht hp.real hp.name
    (by intro e; subst e; cases hd) (by intro cfg e; subst e; cases hd)
  obtain ⟨out, ha, hw⟩ := hb c d hd kwargs catalog schema table
  have hout : out = rows := columns_unique (answer_columns hs.wellFormed hm ha) hc
  subst hout
  have h : Commands.schema s (render u) .json false = .ok (.dict js) := by
    refine schema_iff.mpr ⟨_, _, _, t, live, e, ?_, convert_iff.mp hj⟩
    rw [hw]
    unfold clientSchema
    rw [List.map_congr_left (g := cells (S.view c kwargs)) fun r _ => rowDict_eq hs.wellFormed hs.capitals r, ht]
  exact ⟨printOutput F (.dict js), by simp [recapSchema, cliSchema, h, bind, Except.bind, pure, Except.pure]⟩

/-- **C150** in Avro, for columns that are `Expressible`, and values that are within the type that is read for their
column: see C149 for what is missing. -/
theorem C150_avro_partial (cm : CaseMap) (S : Servers) (s : System) (confs : List Parts) (u : Parts) (c : Client) (d : Dialect)
    (catalog schema table : String) (o : Output) (hb : Behind cm S s.world) (ho : Ordinary s confs u)
    (hu : TableUrl u c catalog schema table) (hd : Speaks c d)
    (h : getSchema s (render u) (some "application/avro+json") = .ok o) :
    ∃ kwargs, Connects confs u c kwargs ∧
      ∀ cols xs, Sound cm (S.view c kwargs) → TableOf S c kwargs catalog schema table cols → StoredRow cm d cols xs →
        (∀ col ∈ cols, Expressible cm d col) →
        (∀ (i : Nat) col x, cols[i]? = some col → xs[i]? = some x → Within cm d col x) →
        ∃ schema, o = .dict schema ∧ Datum [] .none (.dict schema) (.struct xs) := by
  rw [getSchema_asks .avro, respond_ok] at h
  obtain ⟨kwargs, hk, h2⟩ := shown_table hb ho hu hd h
  refine ⟨kwargs, hk, fun cols xs hs hc hx he hw => ?_⟩
  obtain ⟨-, t, live, ht, hsh⟩ := h2 cols hs hc
  cases hsh with
  | avro ha => exact ⟨_, rfl, C149_rows_partial ht ha hx he hw⟩

/-- **C150 does not hold in Avro**: if a column of the table has a date, a time, a point in time or a decimal and is
`NOT NULL`, no row of the table is a datum of what is answered. -/
theorem C150_avro_required_refuted (cm : CaseMap) (S : Servers) (s : System) (confs : List Parts) (u : Parts) (c : Client)
    (d : Dialect) (catalog schema table : String) (o : Output) (hb : Behind cm S s.world) (ho : Ordinary s confs u)
    (hu : TableUrl u c catalog schema table) (hd : Speaks c d)
    (h : getSchema s (render u) (some "application/avro+json") = .ok o) :
    ∃ kwargs, Connects confs u c kwargs ∧
      ∀ cols xs col dt, Sound cm (S.view c kwargs) → TableOf S c kwargs catalog schema table cols → StoredRow cm d cols xs →
        col ∈ cols → ¬DeclaredNullable cm col → DataType cm col dt → dt ∈ AvroRows.pointTypes d ++ AvroRows.numberTypes d →
        ∃ schema, o = .dict schema ∧ ¬Datum [] .none (.dict schema) (.struct xs) := by
  rw [getSchema_asks .avro, respond_ok] at h
  obtain ⟨kwargs, hk, h2⟩ := shown_table hb ho hu hd h
  refine ⟨kwargs, hk, fun cols xs col dt hs hc hx hm hn hdt hin => ?_⟩
  obtain ⟨-, t, live, ht, hsh⟩ := h2 cols hs hc
  cases hsh with
  | avro ha => exact ⟨_, rfl, C149_required_refuted ht ha hx hm hn hdt hin⟩

/-- **C150 does not hold if columns that are null are written as null**: the object for a row in which a column is null is
never valid against what is printed. -/
theorem C150_null_refuted {F : Floats} (cm : CaseMap) (S : Servers) (s : System) (confs : List Parts) (u : Parts)
    (c : Client) (d : Dialect) (catalog schema table : String) (p : Printed) (hF : Lawful F) (hb : Behind cm S s.world)
    (ho : Ordinary s confs u) (hu : TableUrl u c catalog schema table) (hd : Speaks c d)
    (h : recapSchema F s (render u) .json = .ok p) :
    ∃ kwargs, Connects confs u c kwargs ∧
      ∀ cols xs o (i : Nat), Sound cm (S.view c kwargs) → TableOf S c kwargs catalog schema table cols →
        (cols.map fun col => Dict.get? col "COLUMN_NAME").Nodup → cols.length = xs.length → RowObject false cols xs o →
        xs[i]? = some .null →
        ∃ text js, p = .text text ∧ IsJson F (.dict js) text ∧
          ∀ refs, Interprets refs js → ¬Valid refs (.dict js) (.dict o) := by
  unfold recapSchema cliSchema at h
  obtain ⟨o, h1, h⟩ := bind_ok h
  cases h
  obtain ⟨kwargs, hk, h2⟩ := shown_table hb ho hu hd h1
  refine ⟨kwargs, hk, fun cols xs o i hs hc hn hl ho hi => ?_⟩
  obtain ⟨hp, t, live, ht, hsh⟩ := h2 cols hs hc
  cases hsh with
  | json hj =>
    exact ⟨_, _, rfl, printed hF (table_real ht hp hj), fun refs hr =>
      C143_null_refuted cm d cols newRegistry live t _ refs xs o i ht hj hr hp hn hl ho hi⟩

/-! ## A server and a URL -/

/-- A server with three tables. -/
def shopView : View where
  names := exampleView.names
  spelling := exampleView.spelling
  rows := [exampleRow "items" 1 "sku" "varchar" "NO", exampleRow "orders" 1 "id" "bigint" "NO",
    exampleRow "orders" 2 "note" "varchar" "YES", exampleRow "days" 3 "day" "date" "NO"]

/-- All servers are like this. -/
def shops : Servers where
  view _ _ := shopView
  same _ _ := exampleSame

/-- What the clients make of a table of such a server. -/
def shopType (d : Dialect) (catalog schema table : String) : Except PyErr (RType × Registry) :=
  match clientSchema asciiCase d shopView (selected exampleSame shopView table schema catalog) newRegistry with
  | (.ok t, live) => .ok (t, live)
  | (.error e, _) => .error e

/-- A URL of Snowflake that is configured. -/
def confSnow : Parts := { confShop with scheme := "snowflake".toList, path := "/def".toList, query := [] }

theorem confSnow_wf : Url.Spec.WellFormed asciiEnv confSnow := by constructor <;> decide +kernel

/-- Recap, with configured URLs and these servers. -/
def shopSystem : System where
  env := asciiEnv
  mysqlArgs := mysqlCore
  urls := [render confShop, render confSnow]
  world := {
    children := fun _ _ _ => .ok []
    type := fun c _ src =>
      match c, src with
      | .mysql, .table (.str catalog) (.str schema) (.str table) => shopType .mysql catalog schema table
      | .snowflake, .table (.str catalog) (.str schema) (.str table) => shopType .snowflake catalog schema table
      | _, _ => .error .valueError }

/-- The URL of the table `orders`, that is written otherwise than by the server. -/
def ordersUrl : Parts := { confShop with path := "/shop/Orders".toList, user := .none, query := [] }

/-- The URL of the table `days`. -/
def daysUrl : Parts := { confSnow with path := "/def/shop/days".toList, user := .none, query := [] }

theorem shop_behind : Behind asciiCase shops shopSystem.world := by
  intro c d hd kwargs catalog schema table
  refine ⟨selected exampleSame shopView table schema catalog, ⟨.refl _, ?_⟩, ?_⟩
  · refine List.Pairwise.filter _ ?_
    simp [shopView, exampleRow]
  · cases hd <;> rfl

theorem shop_ordinary (u : Parts) (hu : u = ordersUrl ∨ u = daysUrl) : Ordinary shopSystem [confShop, confSnow] u where
  args := by simp [shopSystem]
  urls := rfl
  known := by
    intro c hc
    simp only [List.mem_cons, List.not_mem_nil, or_false] at hc
    rcases hc with rfl | rfl
    · exact confShop_wf
    · exact confSnow_wf
  url := by rcases hu with rfl | rfl <;> constructor <;> decide +kernel
  host := by rcases hu with rfl | rfl <;> decide +kernel
  query := by rcases hu with rfl | rfl <;> decide +kernel
  queries := by
    intro c hc
    simp only [List.mem_cons, List.not_mem_nil, or_false] at hc
    rcases hc with rfl | rfl <;> decide +kernel

theorem orders_url : TableUrl ordersUrl .mysql "def" "shop" "Orders" :=
  .mysql (by decide +kernel) (by decide +kernel) (by decide)

theorem days_url : TableUrl daysUrl .snowflake "def" "shop" "days" :=
  .snowflake (by decide +kernel) (by decide +kernel) (by decide)

theorem shop_sound : Sound asciiCase shopView where
  wellFormed := ⟨by decide +kernel, by simp [shopView, exampleRow]⟩
  capitals := example_capitals
  named := by decide
  name := by
    intro r hr
    simp only [shopView, List.mem_cons, List.not_mem_nil, or_false] at hr
    rcases hr with rfl | rfl | rfl | rfl
    · exact ⟨"sku", by decide, rfl⟩
    · exact ⟨"id", by decide, rfl⟩
    · exact ⟨"note", by decide, rfl⟩
    · exact ⟨"day", by decide, rfl⟩
  real := by
    intro r hr n hn
    simp only [shopView, List.mem_cons, List.not_mem_nil, or_false] at hr
    rcases hr with rfl | rfl | rfl | rfl <;> simp only [exampleRow] <;> (repeat' split) <;> trivial

/-- The columns of `orders`. -/
def orders : List Dict :=
  [cells shopView (exampleRow "orders" 1 "id" "bigint" "NO"), cells shopView (exampleRow "orders" 2 "note" "varchar" "YES")]

/-- The column of `days`. -/
def days : List Dict := [cells shopView (exampleRow "days" 3 "day" "date" "NO")]

theorem orders_table (kwargs : Dict) : TableOf shops .mysql kwargs "def" "shop" "Orders" orders := by
  refine ⟨⟨"def", "shop", "orders"⟩,
    [exampleRow "orders" 1 "id" "bigint" "NO", exampleRow "orders" 2 "note" "varchar" "YES"], ?_, ?_, rfl⟩
  · intro r hr
    simp only [shops, shopView, List.mem_cons, List.not_mem_nil, or_false] at hr
    rcases hr with rfl | rfl | rfl | rfl <;> simp only [exampleRow, shops] <;> decide +kernel
  · refine ⟨by simp [exampleRow], fun r => ?_⟩
    simp only [ColumnOf, shops, shopView, List.mem_cons, List.not_mem_nil, or_false]
    constructor
    · rintro (rfl | rfl) <;> simp [exampleRow]
    · rintro ⟨rfl | rfl | rfl | rfl, h⟩ <;> simp [exampleRow] at h ⊢

theorem days_table (kwargs : Dict) : TableOf shops .snowflake kwargs "def" "shop" "days" days := by
  refine ⟨⟨"def", "shop", "days"⟩, [exampleRow "days" 3 "day" "date" "NO"], ?_, ?_, rfl⟩
  · intro r hr
    simp only [shops, shopView, List.mem_cons, List.not_mem_nil, or_false] at hr
    rcases hr with rfl | rfl | rfl | rfl <;> simp only [exampleRow, shops] <;> decide +kernel
  · refine ⟨by simp, fun r => ?_⟩
    simp only [ColumnOf, shops, shopView, List.mem_cons, List.not_mem_nil, or_false]
    constructor
    · rintro rfl; simp [exampleRow]
    · rintro ⟨rfl | rfl | rfl | rfl, h⟩ <;> simp [exampleRow] at h ⊢

/-- The row `(7, NULL)` of `orders`. -/
theorem orders_stored : StoredRow asciiCase .mysql orders [.int 7, .null] := by
  refine ⟨rfl, fun i c x hc hx => .inl ?_⟩
  match i, hc, hx with
  | 0, hc, hx =>
    cases hc; cases hx
    exact .signed (dt := "bigint") (n := 64) ⟨"bigint", rfl, by decide +kernel⟩ (by decide)
      (by rintro ⟨s, hs, -⟩; cases hs) (by simp only [Avro.Spec.IntValue]; decide +kernel)
  | 1, hc, hx =>
    cases hc; cases hx
    exact .null ⟨"YES", rfl, by decide +kernel⟩
  | _ + 2, hc, _ => cases hc

/-- The row of 1970-01-02 of `days`. -/
theorem days_stored : StoredRow asciiCase .snowflake days [.date 1] := by
  refine ⟨rfl, fun i c x hc hx => .inl ?_⟩
  match i, hc, hx with
  | 0, hc, hx =>
    cases hc; cases hx
    exact .date ⟨"date", rfl, by decide +kernel⟩ (by simp only [Values.CommonDay]; decide)
  | _ + 1, hc, _ => cases hc

/-- The schema of `orders`. -/
def ordersSchema : Dict :=
  [("type", .str "object"),
    ("properties", .dict [("id", .dict [("type", .str "integer")]),
      ("note", .dict [("default", .none), ("type", .str "string")])]),
    ("required", .list [.str "id"])]

/-- `recap schema --output-format json mysql://db:3306/shop/Orders` prints a schema against which `{"id": 7}` is valid. -/
example {F : Floats} (hF : Lawful F) : ∃ p text js, recapSchema F shopSystem (render ordersUrl) .json = .ok p ∧
    p = .text text ∧ IsJson F (.dict js) text ∧
    ∀ refs, Interprets refs js → Valid refs (.dict js) (.dict [("id", .int 7)]) := by
  obtain ⟨kw, -, h⟩ := C150_printed_always F asciiCase shops shopSystem _ ordersUrl .mysql .mysql "def" "shop" "Orders"
    shop_behind (shop_ordinary _ (.inl rfl)) orders_url .mysql
  obtain ⟨p, h⟩ := h orders _ _ shop_sound (orders_table kw) rfl
  obtain ⟨kwargs, -, g⟩ := C150_printed hF asciiCase lower_ascii shops shopSystem _ ordersUrl .mysql .mysql "def" "shop" "Orders" p
    shop_behind (shop_ordinary _ (.inl rfl)) orders_url .mysql h
  obtain ⟨text, js, e, hj, -, hv⟩ := g orders shop_sound (orders_table kwargs)
  refine ⟨p, text, js, h, e, hj, fun refs hr => hv refs _ _ hr orders_stored ?_⟩
  intro i c x hc hx
  match i, hc, hx with
  | 0, hc, hx =>
    cases hc; cases hx
    exact ⟨"id", rfl, .inr ⟨nofun, _, rfl, .int⟩⟩
  | 1, hc, hx =>
    cases hc; cases hx
    exact ⟨"note", rfl, .inl ⟨rfl, rfl, rfl⟩⟩
  | _ + 2, hc, _ => cases hc

/-- This is what is answered and what is printed. -/
theorem orders_shown (F : Floats) :
    getSchema shopSystem (render ordersUrl) (some "application/schema+json") = .ok (.dict ordersSchema) ∧
    recapSchema F shopSystem (render ordersUrl) .json = .ok (.text (dumps F .pretty (.dict ordersSchema))) := ⟨rfl, rfl⟩

/-- **C150 does not hold if columns that are null are written as null.** -/
theorem C150_refuted {F : Floats} (hF : Lawful F) : ¬PrintedForRows F asciiCase false := by
  intro hall
  have h := (orders_shown F).2
  have hreal : Real (.dict ordersSchema) := by simp [ordersSchema, Real, RealPairs, RealAll]
  obtain ⟨kwargs, -, g⟩ := hall shops shopSystem _ ordersUrl .mysql .mysql "def" "shop" "Orders" _
    shop_behind (shop_ordinary _ (.inl rfl)) orders_url .mysql h
  obtain ⟨text, js, e, hj, hun, hv⟩ := g orders shop_sound (orders_table kwargs)
  obtain ⟨kwargs', -, g'⟩ := C150_null_refuted asciiCase shops shopSystem _ ordersUrl .mysql .mysql "def" "shop" "Orders" _
    hF shop_behind (shop_ordinary _ (.inl rfl)) orders_url .mysql h
  have ho : RowObject false orders [.int 7, .null] [("id", .int 7), ("note", .none)] := by
    intro i c x hc hx
    match i, hc, hx with
    | 0, hc, hx =>
      cases hc; cases hx
      exact ⟨"id", rfl, .inr ⟨nofun, _, rfl, .int⟩⟩
    | 1, hc, hx =>
      cases hc; cases hx
      exact ⟨"note", rfl, .inr ⟨nofun, _, rfl, .null⟩⟩
    | _ + 2, hc, _ => cases hc
  obtain ⟨text', js', e', hj', hn⟩ := g' orders _ _ 1 shop_sound (orders_table kwargs') (by decide +kernel) rfl ho rfl
  rw [e] at e'
  cases e'
  cases hun _ hj'
  cases e
  cases hun _ (printed hF hreal)
  have hr : Interprets (fun _ _ => True) ordersSchema := fun alias s hs => by cases hs
  exact hn _ hr (hv _ _ _ hr orders_stored ho)

/-- The row is a datum of what the gateway answers in Avro. -/
example : ∃ schema, getSchema shopSystem (render ordersUrl) (some "application/avro+json") = .ok (.dict schema) ∧
    Datum [] .none (.dict schema) (.struct [.int 7, .null]) := by
  obtain ⟨o, h⟩ : ∃ o, getSchema shopSystem (render ordersUrl) (some "application/avro+json") = .ok o := ⟨_, rfl⟩
  obtain ⟨kwargs, -, g⟩ := C150_avro_partial asciiCase shops shopSystem _ ordersUrl .mysql .mysql "def" "shop" "Orders" o
    shop_behind (shop_ordinary _ (.inl rfl)) orders_url .mysql h
  obtain ⟨schema, rfl, hd⟩ := g orders _ shop_sound (orders_table kwargs) orders_stored
    (by
      intro c hc
      simp only [orders, List.mem_cons, List.not_mem_nil, or_false] at hc
      rcases hc with rfl | rfl
      · exact .direct (dt := "bigint") ⟨"bigint", rfl, by decide +kernel⟩ (by decide)
      · exact .direct (dt := "varchar") ⟨"varchar", rfl, by decide +kernel⟩ (by decide))
    (by
      intro i c x hc hx
      match i, hc, hx with
      | 0, hc, hx =>
        cases hc; cases hx
        rintro _ - ⟨s, hs, -⟩
        cases hs
      | 1, hc, hx => cases hx; nofun
      | _ + 2, hc, _ => cases hc)
  exact ⟨schema, h, hd⟩

/-- **C150 does not hold in Avro.** -/
theorem C150_avro_refuted : ¬AvroForRows asciiCase := by
  intro hall
  obtain ⟨o, h⟩ : ∃ o, getSchema shopSystem (render daysUrl) (some "application/avro+json") = .ok o := ⟨_, rfl⟩
  obtain ⟨kwargs, -, g⟩ := hall shops shopSystem _ daysUrl .snowflake .snowflake "def" "shop" "days" o
    shop_behind (shop_ordinary _ (.inr rfl)) days_url .snowflake h
  obtain ⟨kwargs', -, g'⟩ := C150_avro_required_refuted asciiCase shops shopSystem _ daysUrl .snowflake .snowflake "def" "shop"
    "days" o shop_behind (shop_ordinary _ (.inr rfl)) days_url .snowflake h
  obtain ⟨js, e, hd⟩ := g days _ shop_sound (days_table kwargs) days_stored
  obtain ⟨js', e', hd'⟩ := g' days _ _ "date" shop_sound (days_table kwargs') days_stored (List.mem_singleton.mpr rfl)
    (by rintro ⟨s, hs, hy⟩; cases hs; revert hy; decide +kernel) ⟨"date", rfl, by decide +kernel⟩ (by decide)
  rw [e] at e'
  cases e'
  exact hd' hd

end Recap.EndToEnd
