import Verif.HiveStatsLemmas
import Verif.CommandsThms
import Verif.JsonSchemaRound

/-! # Statistics of Hive tables: C118 -/

set_option autoImplicit false

namespace Recap.Hive

open RType Recap.Spec Relational Hive.Spec

theorem clientSchema_ok {table : HTable} {cs : List ColumnStats} {t' : RType} (h : clientSchema table cs true = .ok t') :
    ∃ fs fs' a, toRecap table = .ok (.struct fs a) ∧ t' = .struct fs' a ∧ parseColumns table.columns = .ok fs ∧
      loadAll (places 0 table.columns) cs fs = .ok fs' := by
  unfold clientSchema at h
  obtain ⟨t, h1, h⟩ := bind_ok h
  obtain ⟨fs, h2, rfl⟩ := hive_ok h1
  simp only [if_true] at h
  obtain ⟨fs', h3, h⟩ := bind_ok h
  cases h
  unfold loadStats at h3
  rw [index_columns 0 h2] at h3
  exact ⟨fs, fs', _, h1, rfl, h2, h3⟩

/-- **C118** With statistics a table has the same fields as without, in the same order and with the same types and
attributes, but for the quantities that the statistics of its column say: those have the values of the statistics. -/
theorem C118_statistics (table : HTable) (cs : List ColumnStats) (t' : RType) (h : clientSchema table cs true = .ok t') :
    ∃ fs fs' a, clientSchema table cs false = .ok (.struct fs a) ∧ t' = .struct fs' a ∧
      fs.length = table.columns.length ∧ fs'.length = fs.length ∧
      ∀ (i : Nat) f f' c, fs[i]? = some f → fs'[i]? = some f' → table.columns[i]? = some c →
        ∃ x, f' = f.withAttrs { f.attrs with extra := x } ∧
          ∀ k, (∀ v, LastOfName table.columns i c.name → Latest cs c.name k v → Dict.get? x k = some v) ∧
            ((LastOfName table.columns i c.name → ∀ v, ¬Latest cs c.name k v) →
              Dict.get? x k = Dict.get? f.attrs.extra k) := by
  obtain ⟨fs, fs', a, h1, rfl, h2, h3⟩ := clientSchema_ok h
  obtain ⟨h4, h5⟩ := loadAll_ok h3
  refine ⟨fs, fs', a, by simp only [clientSchema, h1, bind, Except.bind]; rfl, rfl, parseColumns_length h2, h4, ?_⟩
  intro i f f' c hf hf' hc
  rw [h5, hf] at hf'
  cases hf'
  have hiff : ∀ n, lookup (places 0 table.columns) n = some i ↔ n = c.name ∧ LastOfName table.columns i c.name := by
    intro n
    have := lookup_places n table.columns 0 i
    rw [Nat.zero_add] at this
    rw [this]
    constructor
    · rintro ⟨⟨c', hc', rfl⟩, hl⟩
      rw [hc] at hc'
      cases hc'
      exact ⟨rfl, hl⟩
    · rintro ⟨rfl, hl⟩
      exact ⟨⟨c, hc, rfl⟩, hl⟩
  obtain ⟨x, hx⟩ := settle_shape (places 0 table.columns) i cs f
  refine ⟨x, hx, fun k => ?_⟩
  obtain ⟨g1, g2⟩ := settle_get hiff k cs f
  rw [hx] at g1 g2
  rw [attrs_withAttrs] at g1
  constructor
  · intro v hl hv
    rw [g1 hl, latest_iff.mpr hv]
    rfl
  · intro hno
    by_cases hl : LastOfName table.columns i c.name
    · rw [g1 hl]
      cases hv : latest c.name k cs with
      | none => rfl
      | some v => exact absurd (latest_iff.mp hv) (hno hl v)
    · have := congrArg (fun t => Dict.get? t.attrs.extra k) (g2 hl)
      simpa [attrs_withAttrs] using this

/-- **C118** A table can be read with statistics exactly if it can be read without and all statistics are for columns of
the table; statistics for any other column raise a KeyError. -/
theorem C118_reads (table : HTable) (cs : List ColumnStats) :
    ((∃ t', clientSchema table cs true = .ok t') ↔ (∃ t, clientSchema table cs false = .ok t) ∧
      ∀ c ∈ cs, c.stats.isSome = true → ∃ col ∈ table.columns, col.name = c.name) ∧
    ∀ t, clientSchema table cs false = .ok t →
      (∃ c ∈ cs, c.stats.isSome = true ∧ ∀ col ∈ table.columns, col.name ≠ c.name) →
      clientSchema table cs true = .error .keyError := by
  have off : clientSchema table cs false = toRecap table := by
    unfold clientSchema
    cases toRecap table <;> rfl
  rw [off]
  have on : ∀ {t}, toRecap table = .ok t → ∃ fs, parseColumns table.columns = .ok fs ∧
      clientSchema table cs true = (do
        let fs ← loadAll (places 0 table.columns) cs fs
        pure (.struct fs { extra := [("name", .str table.name)] })) := by
    intro t h
    obtain ⟨fs, h2, rfl⟩ := hive_ok h
    refine ⟨fs, h2, ?_⟩
    simp only [clientSchema, h, bind, Except.bind, if_true, loadStats, index_columns 0 h2]
  have missing : ∀ t, toRecap table = .ok t →
      (∃ c ∈ cs, c.stats.isSome = true ∧ ∀ col ∈ table.columns, col.name ≠ c.name) →
      clientSchema table cs true = .error .keyError := by
    rintro t ht ⟨c, hc, hs, hn⟩
    obtain ⟨fs, h1, h2⟩ := on ht
    rw [h2, loadAll_missing hc hs ((lookup_none _ _ 0).mpr hn)]
    rfl
  refine ⟨⟨?_, ?_⟩, missing⟩
  · rintro ⟨t', h⟩
    obtain ⟨fs, fs', a, h1, -⟩ := clientSchema_ok h
    refine ⟨⟨_, h1⟩, fun c hc hs => Classical.byContradiction fun hno => ?_⟩
    rw [missing _ h1 ⟨c, hc, hs, fun col hm e => hno ⟨col, hm, e⟩⟩] at h
    cases h
  · rintro ⟨⟨t, ht⟩, hall⟩
    obtain ⟨fs, h1, h2⟩ := on ht
    obtain ⟨fs', h3⟩ := loadAll_total (ns := places 0 table.columns) (cs := cs) (fs := fs) (by
      intro c hc hs
      obtain ⟨col, hm, e⟩ := hall c hc hs
      cases hl : lookup (places 0 table.columns) c.name with
      | some i => rfl
      | none => exact absurd e ((lookup_none _ _ 0).mp hl col hm))
    rw [h2, h3]
    exact ⟨_, rfl⟩

/-! ## Statistics and JSON Schema -/

/-- Fields that differ in extra attributes other than the name and the default. -/
inductive Alike : List RType → List RType → Prop
  | nil : Alike [] []
  | cons {f f' x fs fs'} : f.isUnion = true ∨ f.isNull = true → f' = f.withAttrs { f.attrs with extra := x } →
      Dict.get? x "name" = Dict.get? f.attrs.extra "name" → Dict.get? x "default" = Dict.get? f.attrs.extra "default" →
      Alike fs fs' → Alike (f :: fs) (f' :: fs')

theorem not_proxy {f : RType} (h : f.isUnion = true ∨ f.isNull = true) : f.isProxy = false := by
  cases f <;> simp [isUnion, isNull] at h <;> rfl

section Json

open Recap.Json

theorem convertF_extra (live : Registry) {f : RType} {x : Dict} (hp : f.isProxy = false)
    (hd : Dict.get? x "default" = Dict.get? f.attrs.extra "default") (n : Nat) (b : Bool) :
    convertF live n b (f.withAttrs { f.attrs with extra := x }) = convertF live n b f := by
  have hh : Dict.has x "default" = Dict.has f.attrs.extra "default" := by unfold Dict.has; rw [hd]
  cases n with
  | zero => rfl
  | succ n =>
    have he : describe { f.attrs with extra := x } = describe f.attrs := by
      unfold describe; rw [hd]
    cases f with
    | proxy r a => cases hp
    | union ts a =>
      have ho : RType.isOptional ts x = RType.isOptional ts a.extra := by
        unfold RType.isOptional
        simp only [RType.attrs] at hh
        rw [hh]
      simp only [RType.attrs] at he
      simp only [convertF, RType.withAttrs, RType.attrs, ownAlias, ho, he]
    | _ =>
      simp only [RType.attrs] at he
      simp only [convertF, RType.withAttrs, RType.attrs, ownAlias, he]

theorem optional_extra {f : RType} {x : Dict} (hd : Dict.get? x "default" = Dict.get? f.attrs.extra "default") :
    isOptionalField (f.withAttrs { f.attrs with extra := x }) = isOptionalField f := by
  cases f with
  | union ts a =>
    simp only [isOptionalField, RType.withAttrs, RType.isOptional, Dict.has]
    simp only [RType.attrs] at hd
    rw [hd]
  | _ => rfl

theorem ownDefs_extra {F : Bool → RType → Except PyErr Dict} {f : RType} {x : Dict}
    (hF : F false (f.withAttrs { f.attrs with extra := x }) = F false f) :
    ownDefs F (f.withAttrs { f.attrs with extra := x }) = ownDefs F f := by
  unfold ownDefs
  rw [attrs_withAttrs, hF]

theorem aliasDefs_extra {F : Bool → RType → Except PyErr Dict} {f : RType} {x : Dict}
    (hF : F false (f.withAttrs { f.attrs with extra := x }) = F false f) :
    aliasDefs F (f.withAttrs { f.attrs with extra := x }) = aliasDefs F f := by
  have h := ownDefs_extra hF
  cases f <;> simp only [RType.withAttrs] at h ⊢ <;> simp only [aliasDefs, h]

theorem alike_fields (live : Registry) (n : Nat) : ∀ {fs fs' : List RType}, Alike fs fs' → ∀ (ps : Dict) (rs : List PyVal),
    convertFields (convertF live n true) fs' ps rs = convertFields (convertF live n true) fs ps rs := by
  intro fs fs' h
  induction h with
  | nil => intros; rfl
  | @cons f f' x fs fs' hp e hn hd _ ih =>
    intro ps rs
    subst e
    simp only [convertFields, attrs_withAttrs, hn, convertF_extra live (not_proxy hp) hd, optional_extra hd, ih]

theorem alike_defs (live : Registry) (n : Nat) : ∀ {fs fs' : List RType}, Alike fs fs' → ∀ (ds : Dict),
    aliasDefsAll (convertF live n) fs' ds = aliasDefsAll (convertF live n) fs ds := by
  intro fs fs' h
  induction h with
  | nil => intros; rfl
  | @cons f f' x fs fs' hp e hn hd _ ih =>
    intro ds
    subst e
    simp only [aliasDefsAll, aliasDefs_extra (convertF_extra live (not_proxy hp) hd n false), ih]

theorem alike_weight (l : Nat) : ∀ {fs fs' : List RType}, Alike fs fs' → weightAll l fs' = weightAll l fs := by
  intro fs fs' h
  induction h with
  | nil => rfl
  | cons hp e hn hd _ ih =>
    subst e
    simp only [weightAll, ih, weight_withAttrs]

theorem alike_json {live : Registry} {fs fs' : List RType} {a : Attrs} (h : Alike fs fs') (ha : a.alias = .none) :
    fromRecap live (.struct fs' a) = fromRecap live (.struct fs a) := by
  have hs : ∀ n b, convertF live n b (.struct fs' a) = convertF live n b (.struct fs a) := by
    intro n b
    cases n with
    | zero => rfl
    | succ n => simp only [convertF, RType.attrs, ownAlias, alike_fields live n h]
  have ho : ∀ n, ownDefs (convertF live n) (.struct fs' a) = ownDefs (convertF live n) (.struct fs a) := by
    intro n
    simp only [ownDefs, RType.attrs, ha]
  simp only [fromRecap, weight, alike_weight _ h, hs, aliasDefs, ho, alike_defs live _ h]

theorem alike_index : ∀ {fs fs' : List RType}, fs'.length = fs.length →
    (∀ (i : Nat) f f', fs[i]? = some f → fs'[i]? = some f' → (f.isUnion = true ∨ f.isNull = true) ∧ ∃ x, f' = f.withAttrs { f.attrs with extra := x } ∧
      Dict.get? x "name" = Dict.get? f.attrs.extra "name" ∧ Dict.get? x "default" = Dict.get? f.attrs.extra "default") →
    Alike fs fs'
  | [], [], _, _ => .nil
  | f :: fs, f' :: fs', hl, h => by
    obtain ⟨h1, x, h2, h3, h4⟩ := h 0 f f' rfl rfl
    exact .cons h1 h2 h3 h4 (alike_index (by simpa using hl) (fun i g g' => h (i + 1) g g'))

end Json

section Avro

open Recap.Avro

theorem convertAvro_extra (live : Registry) {f : RType} {x : Dict} (hp : f.isUnion = true ∨ f.isNull = true)
    (hn : Dict.get? x "name" = Dict.get? f.attrs.extra "name") (hd : Dict.get? x "default" = Dict.get? f.attrs.extra "default")
    (n : Nat) : Avro.convertF live n (f.withAttrs { f.attrs with extra := x }) = Avro.convertF live n f := by
  cases n with
  | zero => rfl
  | succ n =>
    have he : Avro.describe { f.attrs with extra := x } = Avro.describe f.attrs := by
      unfold Avro.describe Avro.nameOf Avro.copied
      rw [hn, hd]
      rfl
    cases f with
    | union ts a =>
      simp only [RType.attrs] at he
      simp only [Avro.convertF, RType.withAttrs, RType.attrs, he]
      rfl
    | null a =>
      simp only [RType.attrs] at he
      simp only [Avro.convertF, RType.withAttrs, RType.attrs, he]
      rfl
    | _ => simp [isUnion, isNull] at hp

theorem alike_avro_fields (live : Registry) (n : Nat) : ∀ {fs fs' : List RType}, Alike fs fs' →
    Avro.convertAll (Avro.convertF live n) fs' = Avro.convertAll (Avro.convertF live n) fs := by
  intro fs fs' h
  induction h with
  | nil => rfl
  | @cons f f' x fs fs' hp e hn hd _ ih =>
    subst e
    simp only [Avro.convertAll, convertAvro_extra live hp hn hd, ih]

theorem alike_avro {live : Registry} {fs fs' : List RType} {a : Attrs} (h : Alike fs fs') (hl : a.logical = .none) :
    Avro.fromRecap live (.struct fs' a) = Avro.fromRecap live (.struct fs a) := by
  have hs : ∀ n, Avro.convertF live n (.struct fs' a) = Avro.convertF live n (.struct fs a) := by
    intro n
    cases n with
    | zero => rfl
    | succ n => simp only [Avro.convertF, RType.attrs, hl, alike_avro_fields live n h]
  simp only [Avro.fromRecap, weight, alike_weight _ h, hs]

end Avro

theorem value_reserved {cs : List ColumnStats} {name k : String} {v : PyVal} (h : Latest cs name k v) :
    k ≠ "name" ∧ k ≠ "default" := by
  obtain ⟨_, s, _, -, h, -⟩ := h
  have hv := says_value h
  obtain ⟨-, -, h1, h2⟩ := attrs_keys s
  constructor <;> rintro rfl <;> simp [Stats.value, h1, h2] at hv

theorem schema_alike {table : HTable} {cs : List ColumnStats} {t t' : RType}
    (h : clientSchema table cs false = .ok t) (h' : clientSchema table cs true = .ok t') :
    ∃ fs fs', t = .struct fs { extra := [("name", .str table.name)] } ∧
      t' = .struct fs' { extra := [("name", .str table.name)] } ∧ Alike fs fs' := by
  obtain ⟨fs0, fs0', a0, e1, e2, e3, -⟩ := clientSchema_ok h'
  obtain ⟨fs, fs', a, h1, rfl, h2, h3, h4⟩ := C118_statistics table cs t' h'
  rw [h] at h1
  cases h1
  have off : clientSchema table cs false = toRecap table := by
    unfold clientSchema
    cases toRecap table <;> rfl
  rw [off, e1] at h
  cases h
  obtain ⟨_, -, e⟩ := hive_ok e1
  cases e
  have hall := parseColumns_h (P := fun _ => True) (N := fun _ => True) trivial _ _ e3 (fun _ _ => trivial)
    (fun c _ => ⟨trivial, fieldNames_true _⟩)
  refine ⟨fs0, fs', rfl, rfl, alike_index h3 ?_⟩
  intro i f f' hf hf'
  have hi : i < table.columns.length := by
    obtain ⟨hi, -⟩ := List.getElem?_eq_some_iff.mp hf
    omega
  obtain ⟨x, hx, hk⟩ := h4 i f f' _ hf hf' (List.getElem?_eq_getElem hi)
  refine ⟨?_, x, hx, ?_, ?_⟩
  · exact (hall f (List.mem_of_getElem? hf)).1.1
  · exact (hk "name").2 (fun _ v hv => (value_reserved hv).1 rfl)
  · exact (hk "default").2 (fun _ v hv => (value_reserved hv).2 rfl)

/-- **C119** for JSON Schema (partial): statistics do not change the JSON Schema of a table.  Recap's own format is below, where the
property is false. -/
theorem C119_json_partial (table : HTable) (cs : List ColumnStats) (t t' : RType) (live : Registry)
    (h : clientSchema table cs false = .ok t) (h' : clientSchema table cs true = .ok t') :
    Commands.convert live t' .json = Commands.convert live t .json := by
  obtain ⟨fs, fs', rfl, rfl, hal⟩ := schema_alike h h'
  simp only [Commands.convert, alike_json hal]

/-- **C119** for Avro (partial): statistics do not change the Avro schema of a table, if there is one. -/
theorem C119_avro_partial (table : HTable) (cs : List ColumnStats) (t t' : RType) (live : Registry)
    (h : clientSchema table cs false = .ok t) (h' : clientSchema table cs true = .ok t') :
    Commands.convert live t' .avro = Commands.convert live t .avro := by
  obtain ⟨fs, fs', rfl, rfl, hal⟩ := schema_alike h h'
  simp only [Commands.convert, alike_avro hal]

/-- **C119** for Protobuf (partial): with statistics a table is refused as it is without (C114). -/
theorem C119_protobuf_partial (table : HTable) (cs : List ColumnStats) (t t' : RType) (live : Registry)
    (h : clientSchema table cs false = .ok t) (h' : clientSchema table cs true = .ok t') :
    Commands.convert live t .protobuf = .error .assertionError ∧
      Commands.convert live t' .protobuf = .error .assertionError := by
  obtain ⟨fs, fs', rfl, rfl, -⟩ := schema_alike h h'
  exact ⟨rfl, rfl⟩

/-! ## Cases -/

/-- The hypotheses hold for a table with a date, a list and statistics for both. -/
example : ∃ t', clientSchema { name := "t", columns := [{ name := "d", type := .prim .date }, { name := "l", type := .list (.prim .int) }] }
      [⟨"d", some (.date (some (.int 3)) .none (.int 2) (.int 0))⟩, ⟨"l", .none⟩, ⟨"d", some (.other (.int 5))⟩] true = .ok t' ∧
    LastOfName [{ name := "d", type := .prim .date }, { name := "l", type := .list (.prim .int) }] 0 "d" ∧
    Latest [⟨"d", some (.date (some (.int 3)) .none (.int 2) (.int 0))⟩, ⟨"l", .none⟩, ⟨"d", some (.other (.int 5))⟩] "d" "null_count" (.int 5) ∧
    Latest [⟨"d", some (.date (some (.int 3)) .none (.int 2) (.int 0))⟩, ⟨"l", .none⟩, ⟨"d", some (.other (.int 5))⟩] "d" "low" (.int 3) :=
  ⟨_, rfl, by
    intro j c hj hc
    match j, hj with
    | 1, _ => cases hc; decide
    | j + 2, _ => simp at hc,
   latest_iff.mp rfl, latest_iff.mp rfl⟩

/-- A table with statistics for which there is a JSON Schema and an Avro schema. -/
example : ∃ t t' d d', clientSchema { name := "t", columns := [{ name := "d", type := .prim .date }] }
      [⟨"d", some (.date (some (.int 3)) .none (.int 2) (.int 0))⟩] false = .ok t ∧
    clientSchema { name := "t", columns := [{ name := "d", type := .prim .date }] }
      [⟨"d", some (.date (some (.int 3)) .none (.int 2) (.int 0))⟩] true = .ok t' ∧
    Commands.convert newRegistry t' .json = .ok (.dict d) ∧ Commands.convert newRegistry t' .avro = .ok (.dict d') ∧
    ((∃ fs a, t' = .struct fs a ∧ ∃ f ∈ fs, Dict.get? f.attrs.extra "low" = some (.int 3))) :=
  ⟨_, _, _, _, rfl, rfl, rfl, rfl, _, _, rfl, _, List.mem_cons_self .., rfl⟩

end Recap.Hive
