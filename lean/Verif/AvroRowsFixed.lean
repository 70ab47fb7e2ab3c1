import Verif.AvroRowsThms

/-!
# C149: nullable byte strings of a fixed length
-/

set_option autoImplicit false

namespace Recap.AvroRows

open Relational Values Recap.Spec RType
open AvroWrite AvroData
open Recap.Rows (StoredRow InColumn)

/-- A column with byte strings, or bits, for which `n` bytes are declared in the type that is read: `BINARY(n)` and `BIT` of
MySQL, the second always with eight bytes, and `BIT(m)` of PostgreSQL. -/
inductive FixedColumn (cm : CaseMap) (c : Dict) : Dialect → Nat → Prop
  | binary {n : Nat} : DataType cm c "binary" → Dict.get? c "CHARACTER_OCTET_LENGTH" = some (.int n) → FixedColumn cm c .mysql n
  | bit : DataType cm c "bit" → FixedColumn cm c .mysql 8
  | bits {cfg} {m : Nat} : DataType cm c "bit" → Dict.get? c "CHARACTER_MAXIMUM_LENGTH" = some (.int m) →
      FixedColumn cm c (.postgresql cfg) ((m + 7) / 8)

theorem fixed_base {cm : CaseMap} {d : Dialect} {c : Dict} {s s' : Registry} {b : RType} {n : Nat}
    (h : d.parse cm c s = (.ok b, s')) (hc : FixedColumn cm c d n) : b = .bytes (.int n) (.bool false) {} := by
  cases hc with
  | binary hd ho =>
    simp only [Dialect.parse, stateless, Prod.mk.injEq] at h
    replace h := h.1
    unfold mysqlParse at h
    obtain ⟨_, h1, h⟩ := bind_ok h
    obtain ⟨_, h2, h⟩ := bind_ok h
    obtain ⟨o, h3, h⟩ := bind_ok h
    obtain ⟨p, h4, h⟩ := bind_ok h
    obtain ⟨q, h5, h⟩ := bind_ok h
    obtain ⟨r, rfl, rfl⟩ := strMethod_ok h2
    have hdt : DataType cm c (cm.lower r) := ⟨r, item_ok h1, rfl⟩
    replace h3 := item_ok h3
    generalize cm.lower r = dt at h hdt
    cases dataType_unique hdt hd
    cases h3.symm.trans ho
    cases h
    rfl
  | bit hd =>
    simp only [Dialect.parse, stateless, Prod.mk.injEq] at h
    replace h := h.1
    unfold mysqlParse at h
    obtain ⟨_, h1, h⟩ := bind_ok h
    obtain ⟨_, h2, h⟩ := bind_ok h
    obtain ⟨o, h3, h⟩ := bind_ok h
    obtain ⟨p, h4, h⟩ := bind_ok h
    obtain ⟨q, h5, h⟩ := bind_ok h
    obtain ⟨r, rfl, rfl⟩ := strMethod_ok h2
    have hdt : DataType cm c (cm.lower r) := ⟨r, item_ok h1, rfl⟩
    generalize cm.lower r = dt at h hdt
    cases dataType_unique hdt hd
    cases h
    rfl
  | @bits cfg m hd hm =>
    obtain ⟨o, m', ho, hmx, h⟩ := pg_scalar h hd (by decide)
    cases hmx.symm.trans hm
    obtain ⟨g, hg, rfl⟩ := map_ok (show (ceilDiv8 (.int m)).map (fun b => RType.bytes b (.bool false) {}) = .ok b from h)
    simp only [ceilDiv8] at hg
    split at hg
    · cases hg
      congr 2
      omega
    · cases hg

theorem nullable_bytes {cm : CaseMap} {c : Dict} {f : RType} {l v : PyVal} (hn : DeclaredNullable cm c)
    (h : fieldOf cm c (.bytes l v {}) = .ok f) : ∃ b b', b.logical = .none ∧ b'.logical = .none ∧ f = .union [.null {}, .bytes l v b] b' := by
  obtain ⟨n, d, name, h1, -, -, rfl⟩ := fieldOf_ok h
  obtain ⟨s, hs, hu⟩ := hn
  cases h1.symm.trans hs
  simp only [hu, beq_self_eq_true, Bool.or_true, if_true]
  exact ⟨_, _, rfl, rfl, rfl⟩

open Avro in
/-- What is written for a field that is null or a byte string of a fixed length. -/
theorem optional_fixed {live : Registry} {n m : Nat} {a c : Attrs} {w0 w : PyVal} {D : Dict} {env : Env}
    {ns : Option String} {y : Val} (hl : c.logical = .none)
    (h : convertF live n (.union [.null {}, .bytes (.int m) (.bool false) c] a) = .ok w0)
    (hD : fieldSchema w0 = .dict D) (hw : Dict.get? D "type" = some w) (hy : Datum env ns w y) : y = .null ∨ y = .bytes m := by
  cases n with
  | zero => cases h
  | succ n =>
    unfold convertF at h
    obtain ⟨s, hs, h⟩ := ok_bind h
    split at h
    · obtain ⟨e, he, h⟩ := ok_bind h
      simp [logicalSchema] at he
    · obtain ⟨vs, hvs, h⟩ := ok_bind h
      cases h
      rw [update_describe hs (by simp [Dict.keys]) (by simp [Dict.keys]), fieldSchema_shorten] at hD
      cases hD
      rw [get_described hs (by simp)] at hw
      cases hw
      cases hy with
      | union hm hy =>
        obtain ⟨i, hi⟩ := List.mem_iff_getElem?.mp hm
        obtain ⟨hlen, hg⟩ := convertAll_get hvs
        have hlt := (List.getElem?_eq_some_iff.mp hi).1
        match i with
        | 0 =>
          obtain ⟨u, hu, hc⟩ := hg 0 _ rfl
          rw [hi] at hu
          cases hu
          cases n with
          | zero => cases hc
          | succ n =>
            have : convertF live (n + 1) (.null {}) = .ok (.str "null") := by
              unfold convertF
              rfl
            rw [this] at hc
            cases hc
            cases hy with
            | primitiveName h => exact .inl (primitive_null h rfl)
            | reference h => exact absurd (by decide) h.1
        | 1 =>
          obtain ⟨u, hu, hc⟩ := hg 1 _ rfl
          rw [hi] at hu
          cases hu
          cases n with
          | zero => cases hc
          | succ n =>
            unfold convertF at hc
            obtain ⟨s', hs', hc⟩ := ok_bind hc
            simp only [RType.attrs, hl] at hc
            obtain ⟨d, hd, hc⟩ := ok_bind hc
            cases hc
            have hd : d = [("type", .str "fixed"), ("size", .int m)] := by
              simp only [leafSchema] at hd
              split at hd
              · simp at hd
                exact hd.symm
              · cases hd
            subst hd
            rw [update_describe hs' (by simp [Dict.keys]) (by simp [Dict.keys]), shorten_long] at hy
            have ht : AvroData.Is (s' ++ [("type", .str "fixed"), ("size", .int m)]) "fixed" := by
              rw [AvroData.Is, get_described hs' (by simp)]; rfl
            have hf : Dict.get? (s' ++ [("type", .str "fixed"), ("size", .int m)]) "size" = some (.int m) := by
              rw [get_described hs' (by simp)]; simp [Dict.get?]
            have hlt : Dict.get? (s' ++ [("type", .str "fixed"), ("size", .int m)]) "logicalType" = .none := by
              rw [get_described hs' (by simp)]; simp [Dict.get?]
            cases hy with
            | primitive h1 _ h2 => have := AvroData.is_eq ht h1; cases h2 <;> simp at this
            | logical h1 => rw [hlt] at h1; cases h1
            | array h1 | enum h1 | map h1 | record h1 => exact absurd (AvroData.is_eq ht h1) (by decide)
            | fixed _ _ h2 =>
              rw [hf] at h2
              cases h2
              exact .inr rfl
        | i + 2 => simp at hlen; omega

/-- **C149 does not hold: bits.**  If a column is a `BIT` or a `BINARY` that can be null, a row that is a datum has null in it
or exactly the declared bytes, which for `BIT` of MySQL are eight: fewer bits are no datum there. -/
theorem C149_fixed_refuted {cm : CaseMap} {cols : List Dict} {reg live : Registry} {t : RType} {schema : Dict}
    {xs : List Val} {i n : Nat} {c : Dict} {y : Val} {d : Dialect} (ht : d.toRecap cm cols reg = (.ok t, live))
    (hs : Avro.fromRecap live t = .ok schema) (hc : cols[i]? = some c) (hn : DeclaredNullable cm c) (hd : FixedColumn cm c d n)
    (hy : xs[i]? = some y) (hx : Datum [] .none (.dict schema) (.struct xs)) : y = .null ∨ y = .bytes n := by
  obtain ⟨fs, rfl, hf⟩ := toRecap_ok ht
  obtain ⟨hl, hi⟩ := fieldsOf_index hf
  obtain ⟨f, hf⟩ : ∃ f, fs[i]? = some f :=
    ⟨_, List.getElem?_eq_getElem (by have := (List.getElem?_eq_some_iff.mp hc).1; omega)⟩
  obtain ⟨b, s, s', hb, hfb⟩ := hi i c f hc hf
  cases fixed_base hb hd
  obtain ⟨a, a', ha, -, rfl⟩ := nullable_bytes hn hfb
  obtain ⟨n, q, ys, e, h⟩ := struct_datum hs hx
  cases e
  obtain ⟨w0, D, w, y', g1, g2, g3, g4, g5⟩ := h i _ hf
  cases hy.symm.trans g4
  exact optional_fixed ha g1 g2 g3 g5

open Avro in
/-- Every value is a datum of what is written in a field. -/
theorem field_written {live : Registry} {n : Nat} {f : RType} (hf : AsField f) {v : PyVal} (hv : convertF live n f = .ok v)
    (env : Env) (q : Option String) :
    ∃ D w, fieldSchema v = .dict D ∧ Dict.get? D "type" = some w ∧ ∀ x, Holds f x → Datum env q w x := by
  cases n with
  | zero => cases hv
  | succ n =>
    cases hf with
    | plain hp =>
      obtain ⟨s', w, hs', rfl, hw⟩ := convert_plain hp hv
      refine ⟨_, .str w, fieldSchema_shorten _, ?_, fun x hx => .primitiveName (hw x hx)⟩
      rw [get_described hs' (by simp)]; rfl
    | @uuid l v' b hb =>
      obtain ⟨s', d, hs', hd, rfl⟩ := convert_annotated (t := .string l v' b) hb hv
      simp only [logicalSchema, hb, and_true] at hd
      split at hd
      · cases hd
        refine ⟨_, .str "string", fieldSchema_shorten _, ?_, fun x hx => ?_⟩
        · rw [get_described hs' (by simp)]; rfl
        · cases hx with
          | string h' => rw [hb] at h'; cases h'
          | uuid _ h' => exact .primitiveName (.string (by omega))
      · cases hd
    | @union ts b hb hts =>
      unfold convertF at hv
      obtain ⟨s', hs', hv⟩ := ok_bind hv
      simp only [RType.attrs, hb] at hv hs'
      obtain ⟨us, hus, hv⟩ := ok_bind hv
      cases hv
      rw [update_describe hs' (by simp [Dict.keys]) (by simp [Dict.keys])]
      refine ⟨_, .list us, fieldSchema_shorten _, ?_, fun x hx => ?_⟩
      · rw [get_described hs' (by simp)]; rfl
      · cases hx with
        | union ht hx =>
          obtain ⟨v', hv', hc⟩ := convertAll_mem hus ht
          exact .union hv' (values_written (hts _ ht) hc hx q)

open Avro in
/-- Null and the byte strings of the right length are data of what is written in a field for them. -/
theorem fixed_written {live : Registry} {n m : Nat} {a c : Attrs} (hc : c.logical = .none) (ha : a.logical = .none) {v : PyVal}
    (hv : convertF live n (.union [.null {}, .bytes (.int m) (.bool false) c] a) = .ok v) (env : Env) (q : Option String) :
    ∃ D w, fieldSchema v = .dict D ∧ Dict.get? D "type" = some w ∧ ∀ x, x = .null ∨ x = .bytes m → Datum env q w x := by
  cases n with
  | zero => cases hv
  | succ n =>
    unfold convertF at hv
    obtain ⟨s', hs', hv⟩ := ok_bind hv
    simp only [RType.attrs, ha] at hv hs'
    obtain ⟨us, hus, hv⟩ := ok_bind hv
    cases hv
    rw [update_describe hs' (by simp [Dict.keys]) (by simp [Dict.keys])]
    refine ⟨_, .list us, fieldSchema_shorten _, ?_, fun x hx => ?_⟩
    · rw [get_described hs' (by simp)]; rfl
    · rcases hx with rfl | rfl
      · obtain ⟨v', hv', h⟩ := convertAll_mem hus (t := .null {}) (by simp)
        exact .union hv' (values_written (.plain (.null rfl)) h .null q)
      · obtain ⟨v', hv', h⟩ := convertAll_mem hus (t := .bytes (.int m) (.bool false) c) (by simp)
        refine .union hv' ?_
        cases n with
        | zero => cases h
        | succ n =>
          unfold convertF at h
          obtain ⟨s, hs, h⟩ := ok_bind h
          simp only [RType.attrs, hc] at h
          obtain ⟨d, hd, h⟩ := ok_bind h
          cases h
          have hd : d = [("type", .str "fixed"), ("size", .int m)] := by
            simp only [leafSchema] at hd
            split at hd
            · simp at hd
              exact hd.symm
            · cases hd
          subst hd
          rw [update_describe hs (by simp [Dict.keys]) (by simp [Dict.keys])]
          refine datum_shorten (.fixed ?_ (unannotated ?_) ?_)
          · rw [AvroData.Is, get_described hs (by simp)]; rfl
          · rw [get_described hs (by simp)]; simp [Dict.get?]
          · rw [get_described hs (by simp)]; simp [Dict.get?]

open Avro in
/-- A record is a datum of what is written for a structure if this is so for each field. -/
theorem record_written {live : Registry} {fs : List RType} {schema : Dict} {xs : List Val}
    (hs : fromRecap live (.struct fs {}) = .ok schema) (hlen : fs.length = xs.length)
    (h : ∀ n (i : Nat) f x v q, fs[i]? = some f → xs[i]? = some x → convertF live n f = .ok v →
      ∃ D w, fieldSchema v = .dict D ∧ Dict.get? D "type" = some w ∧ Datum [] q w x) :
    Datum [] .none (.dict schema) (.struct xs) := by
  obtain ⟨n, v, hv, hd⟩ := fromRecap_datum hs
  clear hs
  cases n with
  | zero => cases hv
  | succ n =>
    unfold convertF at hv
    obtain ⟨s, hs, hv⟩ := ok_bind hv
    simp only [RType.attrs] at hv hs
    obtain ⟨vs, hvs, hv⟩ := ok_bind hv
    cases hv
    rw [update_describe hs (by simp [Dict.keys]) (by simp [Dict.keys]), shorten_long] at hd
    rcases hd with hd | ⟨_, hd, -⟩ <;> cases hd
    obtain ⟨name, q, hh⟩ := header_described (d := [("type", .str "record"), ("fields", .list (vs.map fieldSchema))])
      hs (.inl (by simp [Dict.get?])) (by simp [Dict.get?]) (by simp [Dict.get?]) .none
    obtain ⟨ws, h1, h2, h3⟩ := fieldTypes_of
      (fun f w => ∀ (i : Nat) x, fs[i]? = some f → xs[i]? = some x → Datum [] q w x) hvs (by
        intro f hf v hv
        obtain ⟨i, hi⟩ := List.mem_iff_getElem?.mp hf
        have hlt := (List.getElem?_eq_some_iff.mp hi).1
        obtain ⟨D, w, g1, g2, -⟩ := h n i f _ v q hi (List.getElem?_eq_getElem (by omega)) hv
        refine ⟨D, w, g1, g2, fun j x hj hx => ?_⟩
        obtain ⟨D', w', g1', g2', g3'⟩ := h n j f x v q hj hx hv
        cases g1.symm.trans g1'
        cases g2.symm.trans g2'
        exact g3')
    refine .record ?_ hh ?_ h1 (h2.trans hlen) fun i w x hw hx => ?_
    · rw [AvroData.Is, get_described hs (by simp)]; rfl
    · rw [get_described hs (by simp)]; simp [Dict.get?]
    · have : i < fs.length := by
        rw [← h2]; exact (List.getElem?_eq_some_iff.mp hw).1
      exact h3 i fs[i] w (List.getElem?_eq_getElem this) hw i x (List.getElem?_eq_getElem this) hx

/-- **C149, also with nullable byte strings of a fixed length.**  Every row of a table is a datum, if each of its values is in
an `Expressible` column and within the type that is read for it, or is null or a byte string of exactly the declared length
in a column of such byte strings that can be null. -/
theorem C149_fixed_partial {cm : CaseMap} {d : Dialect} {cols : List Dict} {reg live : Registry} {t : RType} {schema : Dict}
    {xs : List Val} (ht : d.toRecap cm cols reg = (.ok t, live)) (hs : Avro.fromRecap live t = .ok schema)
    (hx : StoredRow cm d cols xs)
    (hw : ∀ (i : Nat) c x, cols[i]? = some c → xs[i]? = some x → (Expressible cm d c ∧ Within cm d c x) ∨
      (DeclaredNullable cm c ∧ ∃ n, FixedColumn cm c d n ∧ (x = .null ∨ x = .bytes n))) :
    Datum [] .none (.dict schema) (.struct xs) := by
  obtain ⟨fs, rfl, hf⟩ := toRecap_ok ht
  obtain ⟨hl, hi⟩ := fieldsOf_index hf
  refine record_written hs (by rw [hl]; exact hx.1) fun n i f x v q hf hx' hv => ?_
  obtain ⟨c, hc⟩ : ∃ c, cols[i]? = some c := by
    have := (List.getElem?_eq_some_iff.mp hf).1
    exact ⟨_, List.getElem?_eq_getElem (by omega)⟩
  obtain ⟨b, s, s', hb, hfb⟩ := hi i c f hc hf
  rcases hw i c x hc hx' with ⟨he, hwi⟩ | ⟨hn, m, hfix, hval⟩
  · obtain ⟨D, w, g1, g2, g3⟩ := field_written (column_field (dialect_column hb he) hfb) hv [] q
    refine ⟨D, w, g1, g2, g3 x (fieldOf_holds hfb ?_)⟩
    rcases hx.2 i c x hc hx' with h | ⟨⟨cfg, rfl⟩, h⟩
    · exact dialect_holds hb h hwi
    · rcases h with h | ⟨e, n, h, -⟩
      · exact .inl h
      · exact absurd h.1 (expressible_array he)
  · cases fixed_base hb hfix
    obtain ⟨a, a', ha, ha', rfl⟩ := nullable_bytes hn hfb
    obtain ⟨D, w, g1, g2, g3⟩ := fixed_written ha ha' hv [] q
    exact ⟨D, w, g1, g2, g3 x hval⟩

/-- `flag BIT(1)`, for MySQL. -/
def flag : Dict := sqlColumn "flag" "bit" "YES" .none .none (.int 1) .none

/-- It has a schema, of which the row with one byte of bits is not a datum. -/
example : ∃ t live schema, Dialect.mysql.toRecap asciiCase [flag] newRegistry = (.ok t, live) ∧
    Avro.fromRecap live t = .ok schema ∧ StoredRow asciiCase .mysql [flag] [.bytes 1] ∧
    ¬Datum [] .none (.dict schema) (.struct [.bytes 1]) := by
  have hd : DataType asciiCase flag "bit" := ⟨"bit", rfl, by decide +kernel⟩
  have key : ∀ t live schema, Dialect.mysql.toRecap asciiCase [flag] newRegistry = (.ok t, live) →
      Avro.fromRecap live t = .ok schema → ¬Datum [] .none (.dict schema) (.struct [.bytes 1]) := by
    intro t live schema ht hs hx
    have := C149_fixed_refuted (i := 0) ht hs rfl ⟨"YES", rfl, by decide +kernel⟩ (.bit hd) rfl hx
    simp at this
  exact ⟨_, _, _, rfl, rfl, one_stored (.bit hd (by omega)), key _ _ _ rfl rfl⟩

/-- `id BIGINT NOT NULL, mask BIT(12)`, for PostgreSQL. -/
def masks : List Dict :=
  [pgColumn "id" "bigint" "int8" "NO" .none (.int 0),
    (pgColumn "mask" "bit" "bit" "YES" .none (.int 0)).set "CHARACTER_MAXIMUM_LENGTH" (.int 12)]

/-- Twelve bits are two bytes, and the row with an integer and them is a datum of the schema. -/
example : ∃ t live schema, (Dialect.postgresql { enforce := true }).toRecap asciiCase masks newRegistry = (.ok t, live) ∧
    Avro.fromRecap live t = .ok schema ∧ Datum [] .none (.dict schema) (.struct [.int 7, .bytes 2]) := by
  have d1 : DataType asciiCase (pgColumn "id" "bigint" "int8" "NO" .none (.int 0)) "bigint" := ⟨_, rfl, by decide +kernel⟩
  have d2 : DataType asciiCase
      ((pgColumn "mask" "bit" "bit" "YES" .none (.int 0)).set "CHARACTER_MAXIMUM_LENGTH" (.int 12)) "bit" := ⟨_, rfl, by decide +kernel⟩
  have key : ∀ t live schema, (Dialect.postgresql { enforce := true }).toRecap asciiCase masks newRegistry = (.ok t, live) →
      Avro.fromRecap live t = .ok schema → Datum [] .none (.dict schema) (.struct [.int 7, .bytes 2]) := by
    intro t live schema ht hs
    refine C149_fixed_partial ht hs ⟨rfl, fun i c x hc hx => .inl ?_⟩ fun i c x hc hx => ?_
    · match i, hc, hx with
      | 0, hc, hx =>
        cases hc; cases hx
        exact .int (n := 64) d1 (by decide) (by simp [Avro.Spec.IntValue])
      | 1, hc, hx =>
        cases hc; cases hx
        exact .bit (m := 12) d2 rfl (by omega) rfl
    · match i, hc, hx with
      | 0, hc, hx =>
        cases hc; cases hx
        exact .inl ⟨.direct d1 (by simp [directTypes]), by simp [Within]⟩
      | 1, hc, hx =>
        cases hc; cases hx
        exact .inr ⟨⟨"YES", rfl, by decide +kernel⟩, 2, .bits (m := 12) d2 rfl, .inr rfl⟩
  exact ⟨_, _, _, rfl, rfl, key _ _ _ rfl rfl⟩

end Recap.AvroRows
