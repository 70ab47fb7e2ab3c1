import Verif.CommandsSpec
import Verif.ClientsThms
import Verif.SettingsThms
import Verif.RelationalLemmas

/-! # The commands and the gateway: C112, C113, C114 -/

set_option autoImplicit false

namespace Recap.Commands

open Recap.Url Recap.Url.Spec Recap.Clients Recap.Clients.Spec Recap.Commands.Spec

/-! ## C112: formats -/

theorem convert_iff {live : Registry} {t : RType} {f : Format} {o : Output} :
    convert live t f = .ok o ↔ Shows live t f o := by
  constructor
  · intro h
    cases f with
    | avro =>
      obtain ⟨d, h1, h⟩ := Relational.bind_ok h
      cases h; exact .avro h1
    | json =>
      obtain ⟨d, h1, h⟩ := Relational.bind_ok h
      cases h; exact .json h1
    | protobuf =>
      obtain ⟨d, h1, h⟩ := Relational.bind_ok h
      cases h; exact .protobuf h1
    | recap =>
      obtain ⟨v, h1, h⟩ := Relational.bind_ok h
      cases v <;> first | cases h; exact .recap h1 | cases h
  · intro h
    cases h with
    | avro h => simp only [convert, h, bind, Except.bind, pure, Except.pure]
    | json h => simp only [convert, h, bind, Except.bind, pure, Except.pure]
    | protobuf h => simp only [convert, h, bind, Except.bind, pure, Except.pure]
    | recap h => simp only [convert, h, bind, Except.bind, pure, Except.pure]

theorem schema_iff {s : System} {url : Chars} {f : Format} {strict : Bool} {o : Output} :
    schema s url f strict = .ok o ↔
      ∃ c kwargs src t live, reading s.env s.mysqlArgs s.urls url strict = .ok (c, kwargs, src) ∧
        s.world.type c kwargs src = .ok (t, live) ∧ Shows live t f o := by
  constructor
  · intro h
    obtain ⟨⟨c, kwargs, src⟩, h1, h⟩ := Relational.bind_ok h
    obtain ⟨⟨t, live⟩, h2, h⟩ := Relational.bind_ok h
    exact ⟨c, kwargs, src, t, live, h1, h2, convert_iff.mp h⟩
  · rintro ⟨c, kwargs, src, t, live, h1, h2, h3⟩
    simp only [schema, h1, h2, convert_iff.mpr h3, bind, Except.bind]

theorem respond_ok {α : Type} {x : Except PyErr α} {a : α} : respond x = .ok a ↔ x = .ok a := by
  cases x <;> simp [respond]

theorem getSchema_asks {header : Option String} {f : Format} (h : Asks header f) (s : System) (url : Chars) :
    getSchema s url header = respond (schema s url f true) := by
  cases h <;> rfl

/-- **C112**: the gateway answers a request for a schema exactly with what the client reads at the URL,
in the format that the content type asks for. -/
theorem C112_answers (s : System) (url : Chars) (header : Option String) (f : Format) (o : Output)
    (h : Asks header f) :
    getSchema s url header = .ok o ↔
      ∃ c kwargs src t live, reading s.env s.mysqlArgs s.urls url true = .ok (c, kwargs, src) ∧
        s.world.type c kwargs src = .ok (t, live) ∧ Shows live t f o := by
  rw [getSchema_asks h, respond_ok, schema_iff]

/-- **C112**: a content type that asks for no format is refused with status 415, whatever the URL, and
no other request is. -/
theorem C112_unsupported (s : System) (url : Chars) (header : Option String) :
    getSchema s url header = .failed 415 ↔ ∀ f, ¬ Asks header f := by
  constructor
  · intro h f hf
    rw [getSchema_asks hf] at h
    cases hx : schema s url f true <;> rw [hx] at h <;> simp [respond] at h
  · intro h
    have hn : formatMap.lookup (contentType header) = .none := by
      cases header with
      | none => exact absurd .absent (h _)
      | some x =>
        unfold contentType
        simp only
        split
        · rename_i e; subst e; exact absurd .empty (h _)
        · simp only [formatMap, List.lookup_cons, List.lookup_nil]
          repeat' split
          all_goals first
            | rfl
            | (rename_i e
               have e := beq_iff_eq.mp e
               subst e
               first
               | exact absurd .json (h _)
               | exact absurd .avro (h _)
               | exact absurd .protobuf (h _)
               | exact absurd .recap (h _))
    unfold getSchema
    rw [hn]

/-- A system with one table behind a URL that is configured. -/
def oneTable : System where
  env := asciiEnv
  mysqlArgs := mysqlCore
  urls := ["mysql://root:secret@db/shop".toList]
  world := {
    children := fun _ _ _ => .ok []
    type := fun _ _ _ => .ok (.struct [.bool { extra := [("name", .str "a")] }] {}, newRegistry) }

/-- Both requests are answered, in their formats. -/
example : getSchema oneTable "mysql://db/shop/orders".toList .none = .ok (.dict [("type", .str "struct"),
      ("fields", .list [.dict [("type", .str "bool"), ("name", .str "a")]])]) ∧
    getSchema oneTable "mysql://db/shop/orders".toList (some "application/schema+json") =
      .ok (.dict [("type", .str "object"), ("properties", .dict [("a", .dict [("type", .str "boolean")])]),
        ("required", .list [.str "a"])]) := ⟨rfl, rfl⟩

/-- Two ways to write the same media type should get the same answer. -/
def C112_media_type_statement : Prop :=
  ∀ s url a b, mediaType a = mediaType b → getSchema s url (some a) = getSchema s url (some b)

/-- Upper-case letters or parameters in the content type are refused. -/
theorem C112_media_type_refuted : ¬ C112_media_type_statement := by
  intro h
  have := h oneTable "mysql://db/shop/orders".toList "application/schema+json"
    "application/schema+json; charset=utf-8" (by decide +kernel)
  have e : getSchema oneTable "mysql://db/shop/orders".toList (some "application/schema+json") =
      .ok (.dict [("type", .str "object"), ("properties", .dict [("a", .dict [("type", .str "boolean")])]),
        ("required", .list [.str "a"])]) := rfl
  have e2 : getSchema oneTable "mysql://db/shop/orders".toList
      (some "application/schema+json; charset=utf-8") = .failed 415 := rfl
  rw [e, e2] at this
  cases this

/-! ## C113: what the gateway reaches -/

theorem strict_conf {s : System} {method : String} {url : Chars} {r : Chars × List PyVal}
    (h : parseUrl s.env s.urls method url true = .ok r) :
    ∃ c conf, conf ∈ s.urls ∧ urlsplit s.env conf = .ok c := by
  unfold parseUrl at h
  obtain ⟨d, -, h⟩ := Relational.bind_ok h
  obtain ⟨c, -, h⟩ := Relational.bind_ok h
  obtain ⟨⟨conn, args⟩, -, h⟩ := Relational.bind_ok h
  obtain ⟨conn', h1, -⟩ := Relational.bind_ok h
  obtain ⟨conf, hc, x, -, hx, -⟩ := C42_strict_server _ _ _ _ h1
  exact ⟨x, conf, hc, hx⟩

/-- **C113**: without configured URLs, nothing is listed and nothing is read, whatever the URL. -/
theorem C113_nothing_configured (s : System) (url : Chars) (header : Option String) (hs : s.urls = []) :
    (∀ o, getSchema s url header ≠ .ok o) ∧ ∀ l, getLs s url = .ok l → l = [] := by
  refine ⟨fun o h => ?_, fun l h => ?_⟩
  · unfold getSchema at h
    split at h
    · obtain ⟨c, kwargs, src, t, live, h1, -⟩ := schema_iff.mp (respond_ok.mp h)
      obtain ⟨r, h2, -⟩ := Relational.bind_ok h1
      obtain ⟨_, conf, hc, -⟩ := strict_conf h2
      rw [hs] at hc
      cases hc
    · cases h
  · have h := respond_ok.mp h
    cases url with
    | nil =>
      simp only [ls, hs] at h
      cases h
      rfl
    | cons x xs =>
      obtain ⟨⟨c, kwargs, l'⟩, h1, -⟩ := Relational.bind_ok h
      obtain ⟨r, h2, -⟩ := Relational.bind_ok h1
      obtain ⟨_, conf, hc, -⟩ := strict_conf h2
      rw [hs] at hc
      cases hc

/-- **C113** (partial, for the URLs of C86): what the gateway lists or reads at the URL of a database comes
from the host and port of a configured URL, with the credentials of that URL.  Missing: URLs whose query
sets a parameter of the driver, where it is false (`C113_host_refuted`). -/
theorem C113_configured_partial (s : System) (cs : List Parts) (u : Parts) (c : Client)
    (hurls : s.urls = cs.map render) (hm : ∀ k ∈ mysqlCore, k ∈ s.mysqlArgs)
    (wcs : ∀ c ∈ cs, WellFormed s.env c) (wu : WellFormed s.env u) (hs : Server c u.scheme)
    (hh : u.host ≠ .name []) (hdot : (pieces u.path).head? ≠ some ['.'])
    (hq : Silent s.env reserved u.query) (hcs : ∀ c ∈ cs, Silent s.env reserved c.query) :
    (∀ header o, getSchema s (render u) header = .ok o →
      ∃ kwargs src t live f, s.world.type c kwargs src = .ok (t, live) ∧ Shows live t f o ∧
        ∃ conf ∈ cs, SameServer conf u ∧ GivenHost kwargs (hostKey c) conf.host ∧
          GivenPort kwargs conf.port ∧ GivenCredentials kwargs conf.user) ∧
    ∀ l, getLs s (render u) = .ok l →
      ∃ kwargs listing, s.world.children c kwargs listing = .ok l ∧
        ∃ conf ∈ cs, SameServer conf u ∧ GivenHost kwargs (hostKey c) conf.host ∧
          GivenPort kwargs conf.port ∧ GivenCredentials kwargs conf.user := by
  refine ⟨fun header o h => ?_, fun l h => ?_⟩
  · unfold getSchema at h
    split at h
    · rename_i f _
      obtain ⟨cl, kwargs, src, t, live, h1, h2, h3⟩ := schema_iff.mp (respond_ok.mp h)
      rw [hurls] at h1
      obtain ⟨rfl, conf, h4⟩ := C86_strict_partial s.env s.mysqlArgs cs u c cl kwargs hm wcs wu hs hh hdot hq
        hcs (.inr ⟨src, h1⟩)
      exact ⟨kwargs, src, t, live, f, h2, h3, conf, h4⟩
    · cases h
  · have h := respond_ok.mp h
    have hne : render u ≠ [] := by
      intro e
      have := wu.scheme_ne
      unfold render at e
      simp at e
    have h' : (do
        let (c, kwargs, l) ← listing s.env s.mysqlArgs s.urls (render u) true
        s.world.children c kwargs l) = Except.ok l := by
      unfold ls at h
      cases hr : render u with
      | nil => exact absurd hr hne
      | cons x xs => rw [hr] at h; exact h
    obtain ⟨⟨cl, kwargs, l'⟩, h1, h2⟩ := Relational.bind_ok h'
    rw [hurls] at h1
    obtain ⟨rfl, conf, h4⟩ := C86_strict_partial s.env s.mysqlArgs cs u c cl kwargs hm wcs wu hs hh hdot hq
      hcs (.inl ⟨l', h1⟩)
    exact ⟨kwargs, l', h2, conf, h4⟩

/-- **C113**: the list of configured URLs that the gateway shows does not depend on their credentials. -/
theorem C113_root_hides_credentials (s : System) (ps : List (Parts × Parts))
    (h : ∀ x ∈ ps, WellFormed s.env x.1 ∧ WellFormed s.env x.2 ∧
      (x.1 = x.2 ∨ (HasCredentials x.1 ∧ HasCredentials x.2 ∧ x.2 = { x.1 with user := x.2.user }))) :
    getLs { s with urls := ps.map (fun x => render x.1) } [] =
      getLs { s with urls := ps.map (fun x => render x.2) } [] := by
  simp only [getLs, ls, C39_list_hidden s.env ps h]

/-- The configured URL is shown without its credentials, and its tables can be read. -/
example : getLs oneTable [] = .ok ["mysql://db/shop".toList] ∧
    ∃ o, getSchema oneTable "mysql://db/shop/orders".toList .none = .ok o := ⟨rfl, _, rfl⟩

/-- The hypotheses of `C113_configured_partial` are met by a URL that is answered. -/
example : ∃ o, getSchema { oneTable with urls := [render fullUrl] } (render pgTable) .none = .ok o := ⟨_, rfl⟩

/-- A request can make the gateway answer from a server that is not configured, which is given the credentials
of a configured URL. -/
theorem C113_host_refuted :
    ∃ kwargs, Dict.get? kwargs "host" = some (.str "evil.example.com") ∧
      Dict.get? kwargs "user" = some (.str "root") ∧ Dict.get? kwargs "password" = some (.str "secret") ∧
      ∀ world, getLs ⟨asciiEnv, mysqlCore, ["mysql://root:secret@db/".toList], world⟩
          "mysql://db/shop?host=evil.example.com".toList =
        respond (world.children .mysql kwargs (.tables "def" "shop")) := by
  obtain ⟨kwargs, h, h1, h2, h3⟩ := C86_host_refuted
  refine ⟨kwargs, h1, h2, h3, fun world => ?_⟩
  show respond (listing asciiEnv mysqlCore ["mysql://root:secret@db/".toList]
    "mysql://db/shop?host=evil.example.com".toList true >>= fun x => world.children x.1 x.2.1 x.2.2) = _
  rw [h]
  rfl

/-! ## C114: Protobuf -/

/-- A table should have a schema in Protobuf. -/
def C114_statement : Prop := ∀ t live, Table t live → ∃ es, convert live t .protobuf = .ok (.file es)

theorem table_alias {t : RType} {live : Registry} (h : Table t live) : t.attrs.alias = .none := by
  cases h with
  | relational h => obtain ⟨fs, rfl, -⟩ := Relational.toRecap_ok h; rfl
  | bigquery h => obtain ⟨fs, -, h⟩ := Relational.bind_ok h; cases h; rfl
  | hive h => obtain ⟨fs, -, h⟩ := Relational.bind_ok h; cases h; rfl

/-- **C114** is false for every table of every database: the struct of a table has no alias, and the converter
insists on one. -/
theorem C114_no_table_refuted (t : RType) (live : Registry) (h : Table t live) :
    convert live t .protobuf = .error .assertionError := by
  simp only [convert, Protobuf.fromRecap, table_alias h, ↓reduceIte, bind, Except.bind]

theorem C114_refuted : ¬ C114_statement := by
  intro h
  have ht : Table (.struct [] {}) newRegistry := .bigquery (fields := []) rfl
  obtain ⟨es, he⟩ := h _ _ ht
  rw [C114_no_table_refuted _ _ ht] at he
  cases he

end Recap.Commands
