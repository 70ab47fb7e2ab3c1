import Verif.AvroRowsFixed

/-!
# C149: arrays of PostgreSQL and maps of Hive

The specification is in `AvroRowsSpec.lean`.
-/

set_option autoImplicit false

namespace Recap.AvroRows

open Relational Values Recap.Spec RType
open AvroWrite AvroData
open Recap.Rows (StoredRow InColumn)

/-- `Hollow k x`: `x` is an array of `k` dimensions without any element, that is, its arrays of the last dimension are empty. -/
inductive Hollow : Nat → Val → Prop
  | last : Hollow 1 (.list [])
  | outer {k xs} : (∀ x ∈ xs, Hollow k x) → Hollow (k + 1) (.list xs)

open Avro in
/-- What is written for a field that can be null has the data of what is written for the other type, and null. -/
theorem optional_member {live : Registry} {n : Nat} {m : RType} {a : Attrs} {w0 w : PyVal} {D : Dict} {env : Env}
    {ns : Option String} {y : Val} (h : convertF live n (.union [.null {}, m] a) = .ok w0)
    (hD : fieldSchema w0 = .dict D) (hw : Dict.get? D "type" = some w) (hy : Datum env ns w y) :
    y = .null ∨ ∃ n v, convertF live n m = .ok v ∧ Datum env ns v y := by
  cases n with
  | zero => cases h
  | succ n =>
    unfold convertF at h
    obtain ⟨s, hs, h⟩ := ok_bind h
    split at h
    · obtain ⟨e, he, h⟩ := ok_bind h
      simp [logicalSchema] at he
    · obtain ⟨vs, hvs, h⟩ := ok_bind h
      cases h
      rw [update_describe hs (by simp [Dict.keys]) (by simp [Dict.keys]), fieldSchema_shorten] at hD
      cases hD
      rw [get_described hs (by simp)] at hw
      cases hw
      cases hy with
      | union hm hy =>
        obtain ⟨i, hi⟩ := List.mem_iff_getElem?.mp hm
        obtain ⟨hl, hg⟩ := convertAll_get hvs
        have hlt := (List.getElem?_eq_some_iff.mp hi).1
        match i with
        | 0 =>
          obtain ⟨u, hu, hc⟩ := hg 0 _ rfl
          rw [hi] at hu
          cases hu
          cases n with
          | zero => cases hc
          | succ n =>
            have : convertF live (n + 1) (.null {}) = .ok (.str "null") := by
              unfold convertF
              rfl
            rw [this] at hc
            cases hc
            cases hy with
            | primitiveName h => exact .inl (primitive_null h rfl)
            | reference h => exact absurd (by decide) h.1
        | 1 =>
          obtain ⟨u, hu, hc⟩ := hg 1 _ rfl
          rw [hi] at hu
          cases hu
          exact .inr ⟨n, _, hc, hy⟩
        | i + 2 => simp at hl; omega

open Avro in
/-- The data of what is written for a list are lists of data of what is written for its type. -/
theorem list_datum {live : Registry} {n : Nat} {u : RType} {l v w : PyVal} {a : Attrs} {env : Env} {ns : Option String} {y : Val}
    (h : convertF live n (.list u l v a) = .ok w) (hy : Datum env ns w y) :
    ∃ n w' xs, convertF live n u = .ok w' ∧ y = .list xs ∧ ∀ x ∈ xs, Datum env ns w' x := by
  cases n with
  | zero => cases h
  | succ n =>
    unfold convertF at h
    obtain ⟨s', hs', hc⟩ := ok_bind h
    split at hc
    · obtain ⟨e, he, hc⟩ := ok_bind hc
      simp [logicalSchema] at he
    · obtain ⟨v', hv', hc⟩ := ok_bind hc
      cases hc
      rw [update_describe hs' (by simp [Dict.keys]) (by simp [Dict.keys]), shorten_long] at hy
      have ht : AvroData.Is (s' ++ [("type", .str "array"), ("items", v')]) "array" := by
        rw [AvroData.Is, get_described hs' (by simp)]; rfl
      have hf : Dict.get? (s' ++ [("type", .str "array"), ("items", v')]) "items" = some v' := by
        rw [get_described hs' (by simp)]; simp [Dict.get?]
      have hlt : Dict.get? (s' ++ [("type", .str "array"), ("items", v')]) "logicalType" = .none := by
        rw [get_described hs' (by simp)]; simp [Dict.get?]
      cases hy with
      | primitive h1 _ h2 => have := AvroData.is_eq ht h1; cases h2 <;> simp at this
      | logical h1 => rw [hlt] at h1; cases h1
      | fixed h1 | enum h1 | map h1 | record h1 => exact absurd (AvroData.is_eq ht h1) (by decide)
      | @array _ _ u' xs _ h2 h3 =>
        rw [hf] at h2
        cases h2
        exact ⟨n, v', xs, hv', rfl, h3⟩

theorem hollow {live : Registry} {k : Nat} : ∀ {n : Nat} {u : RType} {w : PyVal} {env : Env} {ns : Option String} {y : Val},
    Avro.convertF live n (nDimList u (k + 1)) = .ok w → Datum env ns w y → Hollow (k + 1) y := by
  induction k with
  | zero =>
    intro n u w env ns y h hy
    obtain ⟨m, w', xs, h1, rfl, h2⟩ := list_datum (u := .union [.null {}, u] {}) h hy
    cases xs with
    | nil => exact .last
    | cons x xs => exact absurd (h2 x (List.mem_cons_self ..)) (union_written h1)
  | succ k ih =>
    intro n u w env ns y h hy
    obtain ⟨m, w', xs, h1, rfl, h2⟩ := list_datum (u := nDimList u (k + 1)) h hy
    exact .outer fun x hx => ih h1 (h2 x hx)

theorem dims_base {cm : CaseMap} {cfg : PgConfig} {c : Dict} {s s' : Registry} {b : RType} {k : Nat}
    (h : (Dialect.postgresql cfg).parse cm c s = (.ok b, s')) (hd : DataType cm c "array") (he : cfg.enforce = true)
    (h1 : Dict.get? c "ATTNDIMS" = some (.int k)) : ∃ v, b = nDimList v k := by
  obtain ⟨p, hp, h⟩ := pgParse_ok h
  obtain ⟨-, h2, h3, h4, -, h6⟩ := pgProps_ok hp
  have hp' : p.ndims = .int k := Option.some.inj (h6.symm.trans h1)
  rcases h with ⟨hne, -⟩ | ⟨-, v, -, -, ⟨-, -, h⟩ | ⟨he', -⟩⟩
  · exact absurd (dataType_unique h2 hd) hne
  · rw [hp'] at h
    simp only [createNDim, if_neg (show ¬((k : Int) < 0) by omega), Int.toNat_natCast] at h
    cases h
    exact ⟨v, rfl⟩
  · rw [he] at he'
    cases he'

theorem self_base {cm : CaseMap} {cfg : PgConfig} {c : Dict} {s s' : Registry} {b : RType}
    (h : (Dialect.postgresql cfg).parse cm c s = (.ok b, s')) (hd : DataType cm c "array") (he : cfg.enforce = false) :
    ∃ ts l v a, b = .list (.union ts {}) l v a := by
  obtain ⟨p, hp, h⟩ := pgParse_ok h
  obtain ⟨-, h2, h3, h4, -, h6⟩ := pgProps_ok hp
  rcases h with ⟨hne, -⟩ | ⟨-, v, -, -, ⟨he', -⟩ | ⟨-, _, -, rfl, -⟩⟩
  · exact absurd (dataType_unique h2 hd) hne
  · rw [he] at he'
    cases he'
  · exact ⟨_, _, _, _, rfl⟩

/-- **C149 does not hold: arrays of several dimensions.**  If the dimensions of arrays are enforced and a column can be null
and is declared with `k` dimensions, a row that is a datum has null in the column, or an array of `k` dimensions without
any element. -/
theorem C149_dimensions_refuted {cm : CaseMap} {cfg : PgConfig} {cols : List Dict} {reg live : Registry} {t : RType}
    {schema : Dict} {xs : List Val} {i k : Nat} {c : Dict} {y : Val}
    (ht : (Dialect.postgresql cfg).toRecap cm cols reg = (.ok t, live)) (hs : Avro.fromRecap live t = .ok schema)
    (hc : cols[i]? = some c) (hn : DeclaredNullable cm c) (hd : DataType cm c "array") (he : cfg.enforce = true)
    (h1 : Dict.get? c "ATTNDIMS" = some (.int k)) (hk : 0 < k) (hy : xs[i]? = some y)
    (hx : Datum [] .none (.dict schema) (.struct xs)) : y = .null ∨ Hollow k y := by
  obtain ⟨fs, rfl, hf⟩ := toRecap_ok ht
  obtain ⟨hl, hi⟩ := fieldsOf_index hf
  obtain ⟨f, hf⟩ : ∃ f, fs[i]? = some f :=
    ⟨_, List.getElem?_eq_getElem (by have := (List.getElem?_eq_some_iff.mp hc).1; omega)⟩
  obtain ⟨b, s, s', hb, hfb⟩ := hi i c f hc hf
  obtain ⟨v, rfl⟩ := dims_base hb hd he h1
  obtain ⟨k, rfl⟩ : ∃ j, k = j + 1 := ⟨k - 1, by omega⟩
  obtain ⟨a, a', rfl⟩ := nullable_list (u := nDimList v k) hn hfb
  obtain ⟨n, q, ys, e, h⟩ := struct_datum hs hx
  cases e
  obtain ⟨w0, D, w, y', g1, g2, g3, g4, g5⟩ := h i _ hf
  cases hy.symm.trans g4
  rcases optional_member g1 g2 g3 g5 with rfl | ⟨m, w', h1, h2⟩
  · exact .inl rfl
  · obtain ⟨m', w'', xs, g1, rfl, g2⟩ := list_datum h1 h2
    refine .inr ?_
    cases k with
    | zero =>
      cases xs with
      | nil => exact .last
      | cons x xs => exact absurd (g2 x (List.mem_cons_self ..)) (union_written g1)
    | succ k => exact .outer fun x hx => hollow g1 (g2 x hx)

/-- **C149 does not hold: arrays whose dimensions are not enforced.**  If a column of arrays can be null, a row that is a
datum has null or the empty array in it. -/
theorem C149_arrays_refuted {cm : CaseMap} {cfg : PgConfig} {cols : List Dict} {reg live : Registry} {t : RType}
    {schema : Dict} {xs : List Val} {i : Nat} {c : Dict} {y : Val}
    (ht : (Dialect.postgresql cfg).toRecap cm cols reg = (.ok t, live)) (hs : Avro.fromRecap live t = .ok schema)
    (hc : cols[i]? = some c) (hn : DeclaredNullable cm c) (hd : DataType cm c "array") (he : cfg.enforce = false)
    (hy : xs[i]? = some y) (hx : Datum [] .none (.dict schema) (.struct xs)) : y = .null ∨ y = .list [] := by
  obtain ⟨fs, rfl, hf⟩ := toRecap_ok ht
  obtain ⟨hl, hi⟩ := fieldsOf_index hf
  obtain ⟨f, hf⟩ : ∃ f, fs[i]? = some f :=
    ⟨_, List.getElem?_eq_getElem (by have := (List.getElem?_eq_some_iff.mp hc).1; omega)⟩
  obtain ⟨b, s, s', hb, hfb⟩ := hi i c f hc hf
  obtain ⟨ts, l, v, a, rfl⟩ := self_base hb hd he
  obtain ⟨a, a', rfl⟩ := nullable_list hn hfb
  obtain ⟨n, q, ys, e, h⟩ := struct_datum hs hx
  cases e
  obtain ⟨w0, D, w, y', g1, g2, g3, g4, g5⟩ := h i _ hf
  cases hy.symm.trans g4
  exact optional_list g1 g2 g3 g5

open Avro in
/-- No schema is written for a Hive table with a column of maps, as the keys can be null in the type that is read. -/
theorem C149_hive_maps {table : Hive.HTable} {live : Registry} {t : RType} {schema : Dict} {c : Hive.HColumn}
    {k v : Hive.HType} (ht : Hive.toRecap table = .ok t) (hc : c ∈ table.columns) (hm : c.type = .map k v) :
    Avro.fromRecap live t ≠ .ok schema := by
  intro hs
  unfold Hive.toRecap at ht
  obtain ⟨ts, h1, ht⟩ := bind_ok ht
  cases ht
  obtain ⟨i, hc⟩ := List.mem_iff_getElem?.mp hc
  obtain ⟨hl, hi⟩ := NestedRows.parseColumns_index h1
  obtain ⟨f, hf⟩ : ∃ f, ts[i]? = some f :=
    ⟨_, List.getElem?_eq_getElem (by have := (List.getElem?_eq_some_iff.mp hc).1; omega)⟩
  have h2 := hi i c f hc hf
  rw [hm, Hive.parse] at h2
  obtain ⟨k', h3, h2⟩ := bind_ok h2
  obtain ⟨v', h4, h2⟩ := bind_ok h2
  have hk : Avro.isString k' = false := by
    by_cases hv : k = .prim .void
    · subst hv
      rw [Hive.parse] at h3
      cases h3
      rfl
    · obtain ⟨us, a, rfl⟩ := hive_union h3 hv
      rfl
  cases h2
  obtain ⟨n, w, hw, -⟩ := fromRecap_datum hs
  cases n with
  | zero => cases hw
  | succ n =>
    unfold convertF at hw
    obtain ⟨_, -, hw⟩ := ok_bind hw
    obtain ⟨vs, hvs, -⟩ := ok_bind hw
    obtain ⟨_, -, hf⟩ := convertAll_mem hvs (List.mem_of_getElem? hf)
    cases n with
    | zero => cases hf
    | succ n =>
      unfold convertF at hf
      obtain ⟨_, -, hf⟩ := ok_bind hf
      obtain ⟨us, hus, -⟩ := ok_bind hf
      obtain ⟨_, -, hm⟩ := convertAll_mem hus (List.mem_cons_of_mem _ (List.mem_singleton.mpr rfl))
      cases n with
      | zero => cases hm
      | succ n =>
        unfold convertF at hm
        obtain ⟨_, -, hm⟩ := ok_bind hm
        have hm' : (if isString k' = true then _ else Except.error PyErr.valueError) = Except.ok _ := hm
        rw [hk] at hm'
        cases hm'

/-- `grid INTEGER[][]`, for PostgreSQL. -/
def grid : List Dict := [pgColumn "grid" "ARRAY" "_int4" "YES" .none (.int 2)]

/-- If dimensions are enforced, it has a schema, of which no row with a number in the array is a datum. -/
example : ∃ t live schema, (Dialect.postgresql { enforce := true }).toRecap asciiCase grid newRegistry = (.ok t, live) ∧
    Avro.fromRecap live t = .ok schema ∧ ∀ i, ¬Datum [] .none (.dict schema) (.struct [.list [.list [], .list [.int i]]]) := by
  have hd : DataType asciiCase (pgColumn "grid" "ARRAY" "_int4" "YES" .none (.int 2)) "array" := ⟨"ARRAY", rfl, by decide +kernel⟩
  have key : ∀ t live schema, (Dialect.postgresql { enforce := true }).toRecap asciiCase grid newRegistry = (.ok t, live) →
      Avro.fromRecap live t = .ok schema → ∀ i, ¬Datum [] .none (.dict schema) (.struct [.list [.list [], .list [.int i]]]) := by
    intro t live schema ht hs i hx
    rcases C149_dimensions_refuted (i := 0) (k := 2) ht hs rfl ⟨"YES", rfl, by decide +kernel⟩ hd rfl rfl (by omega) rfl hx with h | h
    · cases h
    · cases h with
      | outer h =>
        cases h (.list [.int i]) (by simp) with
        | outer h => cases h (.int i) (by simp)
  exact ⟨_, _, _, rfl, rfl, key _ _ _ rfl rfl⟩

/-- So it is if they are not. -/
example : ∃ t live schema, (Dialect.postgresql {}).toRecap asciiCase grid newRegistry = (.ok t, live) ∧
    Avro.fromRecap live t = .ok schema ∧ ∀ x, ¬Datum [] .none (.dict schema) (.struct [.list [x]]) := by
  have hd : DataType asciiCase (pgColumn "grid" "ARRAY" "_int4" "YES" .none (.int 2)) "array" := ⟨"ARRAY", rfl, by decide +kernel⟩
  have key : ∀ t live schema, (Dialect.postgresql {}).toRecap asciiCase grid newRegistry = (.ok t, live) →
      Avro.fromRecap live t = .ok schema → ∀ x, ¬Datum [] .none (.dict schema) (.struct [.list [x]]) := by
    intro t live schema ht hs x hx
    have := C149_arrays_refuted (i := 0) ht hs rfl ⟨"YES", rfl, by decide +kernel⟩ hd rfl rfl hx
    simp at this
  exact ⟨_, _, _, rfl, rfl, key _ _ _ rfl rfl⟩

/-- `m MAP<VARCHAR(5), INT>`, for Hive: a type is read, and no schema is written. -/
example : ∃ t, Hive.toRecap { name := "t", columns := [{ name := "m", type := .map (.varchar 5) (.prim .int) }] } = .ok t ∧
    ∀ live schema, Avro.fromRecap live t ≠ .ok schema :=
  ⟨_, rfl, fun _ _ => C149_hive_maps (table := { name := "t", columns := [{ name := "m", type := .map (.varchar 5) (.prim .int) }] })
    rfl (List.mem_singleton.mpr rfl) rfl⟩

end Recap.AvroRows
