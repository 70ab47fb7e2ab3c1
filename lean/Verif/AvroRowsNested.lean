import Verif.AvroRowsLemmas
import Verif.ValuesNested

/-!
# Lemmas on the rows of BigQuery and Hive tables as Avro data
-/

set_option autoImplicit false

namespace Recap.AvroRows

open Values Recap.Spec RType
open AvroWrite AvroData
open Recap.Relational (bind_ok)

/-! ## BigQuery -/

theorem decorate_rest {mode : String} {n d df : PyVal} {t u : RType}
    (hu : u = (if mode == "NULLABLE" then makeNullable (if mode == "REPEATED" then .list t .none (.bool true) {} else t)
      else if mode == "REPEATED" then .list t .none (.bool true) {} else t)) :
    ∃ a, BigQuery.decorate mode n d df t = u.withAttrs a ∧ a.logical = u.attrs.logical := by
  unfold BigQuery.decorate
  simp only [← hu]
  clear hu
  split <;> split <;> split <;> cases u <;> exact ⟨_, rfl, rfl⟩

theorem decorate_member {n d df : PyVal} {t : RType} (h : Member t) : AsField (BigQuery.decorate "NULLABLE" n d df t) := by
  obtain ⟨a, e, h'⟩ := decorate_rest (mode := "NULLABLE") (n := n) (d := d) (df := df) (t := t) rfl
  rw [e]
  exact field_attrs (member_nullable h) h'

theorem decorate_plain {mode : String} {n d df : PyVal} {t : RType} (h : AvroWrite.Plain t) (hm : mode ≠ "REPEATED") :
    AsField (BigQuery.decorate mode n d df t) := by
  by_cases hn : mode = "NULLABLE"
  · subst hn
    exact decorate_member (.plain h)
  · obtain ⟨a, e, h'⟩ := decorate_rest (mode := mode) (n := n) (d := d) (df := df) (t := t) rfl
    rw [e]
    rw [if_neg (by simpa using hn), if_neg (by simpa using hm)] at h' ⊢
    exact field_attrs (.plain h) h'

theorem orElse_int {p : Nat} {z : PyVal} (h : 1 ≤ p) : BigQuery.orElse (.int p) z = .int p := by
  rw [BigQuery.orElse, if_pos]
  simp [PyVal.truthy]
  omega

theorem orElse_scale {q : Nat} {s : PyVal} (h : s = .int q ∨ s = .none ∧ q = 0) : BigQuery.orElse s (.int 0) = .int q := by
  rcases h with rfl | ⟨rfl, rfl⟩
  · rw [BigQuery.orElse]
    split
    · rfl
    · rename_i h0
      simp [PyVal.truthy] at h0
      rw [h0]
      rfl
  · rfl

mutual
theorem bigquery_field : ∀ (f : BigQuery.Field) (t : RType), BigQuery.fieldOf f = .ok t → BigQueryExpressible f → AsField t
  | .mk ft mode n d df l p s fields, t, h, he => by
    rw [BigQuery.fieldOf] at h
    cases he with
    | plain hm hr =>
      have hne : ¬(["RECORD", "STRUCT"].contains ft = true) := by
        simp only [plainTypes, List.mem_cons, List.not_mem_nil, or_false] at hm
        rcases hm with rfl | rfl | rfl | rfl | rfl | rfl | rfl | rfl <;> decide
      rw [if_neg hne] at h
      obtain ⟨u, h1, h⟩ := bind_ok h
      cases h
      refine decorate_plain ?_ hr
      simp only [plainTypes, List.mem_cons, List.not_mem_nil, or_false] at hm
      rcases hm with rfl | rfl | rfl | rfl | rfl | rfl | rfl | rfl <;> cases h1
      · exact .string rfl
      · exact .string rfl
      · exact .bytes rfl
      · exact .signed rfl (by decide)
      · exact .signed rfl (by decide)
      · exact .float rfl
      · exact .float rfl
      · exact .bool rfl
    | point hm =>
      have hne : ¬(["RECORD", "STRUCT"].contains ft = true) := by
        simp only [pointsOfBigQuery, List.mem_cons, List.not_mem_nil, or_false] at hm
        rcases hm with rfl | rfl | rfl | rfl <;> decide
      rw [if_neg hne] at h
      obtain ⟨u, h1, h⟩ := bind_ok h
      cases h
      refine decorate_member (.annotated ?_)
      simp only [pointsOfBigQuery, List.mem_cons, List.not_mem_nil, or_false] at hm
      rcases hm with rfl | rfl | rfl | rfl <;> cases h1
      · exact .timestamp rfl
      · exact .timestamp rfl
      · exact .date rfl
      · exact .time rfl
    | number hm hp hq hs =>
      have hne : ¬(["RECORD", "STRUCT"].contains ft = true) := by
        simp only [numbersOfBigQuery, List.mem_cons, List.not_mem_nil, or_false] at hm
        rcases hm with rfl | rfl <;> decide
      rw [if_neg hne] at h
      obtain ⟨u, h1, h⟩ := bind_ok h
      cases h
      refine decorate_member (.annotated ?_)
      simp only [numbersOfBigQuery, List.mem_cons, List.not_mem_nil, or_false] at hm
      rcases hm with rfl | rfl <;> cases h1
      · exact .decimal rfl (by rw [orElse_int hp]; rfl) (by rw [orElse_scale hs]; rfl) hp hq
      · exact .decimal rfl (by rw [orElse_int hp]; rfl) (by rw [orElse_scale hs]; rfl) hp hq
    | record hm hfs =>
      rw [if_pos (by simpa using hm)] at h
      obtain ⟨ts, h1, h⟩ := bind_ok h
      cases h
      exact decorate_member (.struct rfl (bigquery_fields fields ts h1 hfs))
theorem bigquery_fields : ∀ (fs : List BigQuery.Field) (ts : List RType), BigQuery.fieldsOf fs = .ok ts →
    (∀ f ∈ fs, BigQueryExpressible f) → ∀ t ∈ ts, AsField t
  | [], ts, h, _ => by
    rw [BigQuery.fieldsOf] at h
    cases h
    simp
  | f :: fs, ts, h, he => by
    rw [BigQuery.fieldsOf] at h
    obtain ⟨t, h1, h⟩ := bind_ok h
    obtain ⟨us, h2, h⟩ := bind_ok h
    cases h
    intro u hu
    rcases List.mem_cons.mp hu with rfl | hu
    · exact bigquery_field f u h1 (he f (List.mem_cons_self ..))
    · exact bigquery_fields fs us h2 (fun g hg => he g (List.mem_cons_of_mem _ hg)) u hu
end

/-- Columns with mode `REPEATED`, and records that are not `NULLABLE`. -/
theorem bigquery_inline {ft mode : String} {n d df l p s : PyVal} {fields : List BigQuery.Field} {t : RType}
    (h : BigQuery.fieldOf (.mk ft mode n d df l p s fields) = .ok t)
    (hi : mode = "REPEATED" ∨ ft ∈ ["RECORD", "STRUCT"] ∧ mode ≠ "NULLABLE") : Inline t := by
  rw [BigQuery.fieldOf] at h
  have fin : ∀ u : RType, mode = "REPEATED" ∨ (Inline u ∧ mode ≠ "NULLABLE") → Inline (BigQuery.decorate mode n d df u) := by
    intro u hu
    obtain ⟨a, e, h'⟩ := decorate_rest (mode := mode) (n := n) (d := d) (df := df) (t := u) rfl
    rw [e]
    rcases hu with rfl | ⟨hu, hm⟩
    · exact .list h'
    · rw [if_neg (by simpa using hm)] at h' ⊢
      split at h' <;> rename_i hr
      · rw [if_pos hr]
        exact .list h'
      · rw [if_neg hr]
        cases hu with
        | enum hl => exact .enum (h'.trans hl)
        | fixed hl => exact .fixed (h'.trans hl)
        | list hl => exact .list (h'.trans hl)
        | map hl => exact .map (h'.trans hl)
        | struct hl => exact .struct (h'.trans hl)
  split at h
  · obtain ⟨ts, -, h⟩ := bind_ok h
    cases h
    refine fin _ ?_
    rcases hi with hi | hi
    · exact .inl hi
    · exact .inr ⟨.struct rfl, hi.2⟩
  · rename_i hr
    obtain ⟨u, -, h⟩ := bind_ok h
    cases h
    refine fin _ ?_
    rcases hi with hi | hi
    · exact .inl hi
    · exact absurd (by simpa using hi.1) hr

/-! ## Hive -/

theorem plain_flatten {t : RType} (h : AvroWrite.Plain t) : Hive.flatten t = t := by
  cases h <;> rfl

theorem annotated_flatten {t : RType} (h : Annotated t) : Hive.flatten t = t := by
  cases h <;> rfl

theorem schema_union {t : RType} (h : AsSchema t) : t.isUnion = false := by
  cases h with
  | plain h => cases h <;> rfl
  | annotated h => cases h <;> rfl
  | _ => rfl

/-- The members of a flattened union. -/
theorem absorbed {ts : List RType} (h : ∀ t ∈ ts, AsSchema t ∨ AsField t) : ∀ m ∈ ts.foldl Hive.absorb [], AsSchema m := by
  intro m hm
  rcases Hive.mem_foldl_absorb hm with hm | ⟨hm, hu⟩ | ⟨f, hf, hu, hm⟩
  · cases hm
  · rcases h m hm with h | h
    · exact h
    · cases h with
      | plain h => exact .plain h
      | uuid h => exact .annotated (.uuid h)
      | union => cases hu
  · rcases h f hf with h | h
    · rw [schema_union h] at hu
      cases hu
    · cases h with
      | plain h => cases h <;> cases hu
      | uuid h => cases hu
      | union _ hs => exact hs m hm

mutual
theorem flatten_as : ∀ (t : RType), (AsSchema t → AsSchema (Hive.flatten t)) ∧ (AsField t → AsField (Hive.flatten t))
  | .null _ => ⟨id, id⟩
  | .bool _ => ⟨id, id⟩
  | .int _ _ _ => ⟨id, id⟩
  | .float _ _ => ⟨id, id⟩
  | .string _ _ _ => ⟨id, id⟩
  | .bytes _ _ _ => ⟨id, id⟩
  | .enum _ _ => ⟨id, id⟩
  | .proxy _ _ => ⟨id, id⟩
  | .list t l v a => by
    refine ⟨fun h => ?_, fun h => ?_⟩
    · cases h with
      | plain h => cases h
      | annotated h => cases h
      | list hl h => rw [Hive.flatten]; exact .list rfl ((flatten_as t).1 h)
    · cases h with
      | plain h => cases h
  | .map k v a => by
    refine ⟨fun h => ?_, fun h => ?_⟩
    · cases h with
      | plain h => cases h
      | annotated h => cases h
      | map hl hm h => rw [Hive.flatten]; exact .map rfl hm ((flatten_as v).1 h)
    · cases h with
      | plain h => cases h
  | .struct fs a => by
    refine ⟨fun h => ?_, fun h => ?_⟩
    · cases h with
      | plain h => cases h
      | annotated h => cases h
      | struct hl hn h => rw [Hive.flatten]; exact .struct hl hn ((flattenAll_as fs).2 h)
    · cases h with
      | plain h => cases h
  | .union ts a => by
    refine ⟨fun h => ?_, fun h => ?_⟩
    · cases h with
      | plain h => cases h
      | annotated h => cases h
    · cases h with
      | plain h => cases h
      | union hl h => rw [Hive.flatten]; exact .union hl (absorbed fun t ht => .inl ((flattenAll_as ts).1 h t ht))
theorem flattenAll_as : ∀ (ts : List RType), ((∀ t ∈ ts, AsSchema t) → ∀ u ∈ Hive.flattenAll ts, AsSchema u) ∧
    ((∀ t ∈ ts, AsField t) → ∀ u ∈ Hive.flattenAll ts, AsField u)
  | [] => by simp [Hive.flattenAll]
  | t :: ts => by
    rw [Hive.flattenAll]
    refine ⟨fun h u hu => ?_, fun h u hu => ?_⟩ <;> rcases List.mem_cons.mp hu with rfl | hu
    · exact (flatten_as t).1 (h t (List.mem_cons_self ..))
    · exact (flattenAll_as ts).1 (fun t' ht' => h t' (List.mem_cons_of_mem _ ht')) u hu
    · exact (flatten_as t).2 (h t (List.mem_cons_self ..))
    · exact (flattenAll_as ts).2 (fun t' ht' => h t' (List.mem_cons_of_mem _ ht')) u hu
end

theorem finish_member {t : RType} (h : Member t) : AsField (Hive.finish t) := by
  unfold Hive.finish
  split
  · rename_i hu
    cases h with
    | plain h => exact .plain h
    | annotated h => cases h <;> simp [isUnion, isNull] at hu
    | enum => simp [isUnion, isNull] at hu
    | struct => simp [isUnion, isNull] at hu
    | list => simp [isUnion, isNull] at hu
  · exact member_nullable h

mutual
theorem hive_field : ∀ (t : Hive.HType) (x : Attrs) (r : RType), x.logical = .none → Hive.parse x t = .ok r →
    HiveExpressible t → AsField r
  | .prim c, x, r, hx, h, he => by
    rw [Hive.parse] at h
    obtain ⟨t, h1, h⟩ := bind_ok h
    cases h
    refine finish_member ?_
    cases he with
    | prim hc =>
      cases c <;> cases h1
      · exact .plain (.bool hx)
      · exact .plain (.signed hx (by decide))
      · exact .plain (.signed hx (by decide))
      · exact .plain (.signed hx (by decide))
      · exact .plain (.signed hx (by decide))
      · exact .plain (.float hx)
      · exact .plain (.float hx)
      · exact .plain (.null hx)
      · exact .plain (.string hx)
      · exact .plain (.bytes hx)
      · exact .annotated (.date rfl)
      · exact .annotated (.timestamp rfl)
      · exact .annotated (.timestamp rfl)
      · simp at hc
      · simp at hc
  | .decimal p s, x, r, hx, h, he => by
    rw [Hive.parse] at h
    split at h
    · cases h
    cases h
    cases he with
    | decimal hp hq => exact finish_member (.annotated (.decimal rfl rfl rfl hp hq))
  | .varchar n, x, r, hx, h, _ => by
    rw [Hive.parse] at h
    cases h
    exact finish_member (.plain (.string hx))
  | .char n, x, r, hx, h, _ => by
    rw [Hive.parse] at h
    cases h
    exact finish_member (.plain (.string hx))
  | .map k w, x, r, hx, h, he => nomatch he
  | .list e, x, r, hx, h, he => by
    cases he with
    | voids =>
      rw [Hive.parse] at h
      obtain ⟨u, h1, h⟩ := bind_ok h
      cases h
      rw [Hive.parse] at h1
      cases h1
      exact finish_member (.list hx (.plain (.null rfl)))
  | .union ts, x, r, hx, h, he => by
    cases he with
    | union he =>
      rw [Hive.parse] at h
      obtain ⟨us, h1, h⟩ := bind_ok h
      cases h
      have ih := hive_all ts us h1 he
      rw [Hive.finish, Hive.flatten]
      refine .union hx (absorbed fun t ht => .inr ?_)
      refine (flattenAll_as (.null {} :: us)).2 (fun t ht => ?_) t ht
      rcases List.mem_cons.mp ht with rfl | ht
      · exact .plain (.null rfl)
      · exact ih t ht
  | .struct fs, x, r, hx, h, he => by
    cases he with
    | struct he =>
      rw [Hive.parse] at h
      obtain ⟨us, h1, h⟩ := bind_ok h
      cases h
      exact finish_member (.struct hx (hive_fields fs us h1 he))
theorem hive_all : ∀ (ts : List Hive.HType) (us : List RType), Hive.parseAll ts = .ok us → (∀ t ∈ ts, HiveExpressible t) →
    ∀ u ∈ us, AsField u
  | [], us, h, _ => by
    rw [Hive.parseAll] at h
    cases h
    simp
  | t :: ts, us, h, he => by
    rw [Hive.parseAll] at h
    obtain ⟨u, h1, h⟩ := bind_ok h
    obtain ⟨us', h2, h⟩ := bind_ok h
    cases h
    intro w hw
    rcases List.mem_cons.mp hw with rfl | hw
    · exact hive_field t {} w rfl h1 (he t (List.mem_cons_self ..))
    · exact hive_all ts us' h2 (fun g hg => he g (List.mem_cons_of_mem _ hg)) w hw
theorem hive_fields : ∀ (fs : List (String × Hive.HType)) (us : List RType), Hive.parseFields fs = .ok us →
    (∀ f ∈ fs, HiveExpressible (Prod.snd f)) → ∀ u ∈ us, AsField u
  | [], us, h, _ => by
    rw [Hive.parseFields] at h
    cases h
    simp
  | (n, t) :: fs, us, h, he => by
    rw [Hive.parseFields] at h
    obtain ⟨u, h1, h⟩ := bind_ok h
    obtain ⟨us', h2, h⟩ := bind_ok h
    cases h
    intro w hw
    rcases List.mem_cons.mp hw with rfl | hw
    · exact hive_field t (Hive.columnAttrs n .none) w rfl h1 (he (n, t) (List.mem_cons_self ..))
    · exact hive_fields fs us' h2 (fun g hg => he g (List.mem_cons_of_mem _ hg)) w hw
end

theorem hive_rows : ∀ (cs : List Hive.HColumn) (us : List RType), Hive.parseColumns cs = .ok us →
    (∀ c ∈ cs, HiveExpressible c.type) → ∀ u ∈ us, AsField u
  | [], us, h, _ => by
    rw [Hive.parseColumns] at h
    cases h
    simp
  | c :: cs, us, h, he => by
    rw [Hive.parseColumns] at h
    obtain ⟨u, h1, h⟩ := bind_ok h
    obtain ⟨us', h2, h⟩ := bind_ok h
    cases h
    intro w hw
    rcases List.mem_cons.mp hw with rfl | hw
    · exact hive_field c.type (Hive.columnAttrs c.name c.comment) w rfl h1 (he c (List.mem_cons_self ..))
    · exact hive_rows cs us' h2 (fun g hg => he g (List.mem_cons_of_mem _ hg)) w hw

/-! ## Lists that can be null -/

theorem primitive_null {s : String} {x : Val} (h : Primitive s x) (hs : s = "null") : x = .null := by
  cases h <;> simp at hs
  rfl

open Avro in
/-- What is written for a field that is null or a list of a union. -/
theorem optional_list {live : Registry} {n : Nat} {ts : List RType} {a b c : Attrs} {l v w0 w : PyVal} {D : Dict} {env : Env}
    {ns : Option String} {y : Val} (h : convertF live n (.union [.null {}, .list (.union ts b) l v c] a) = .ok w0)
    (hD : fieldSchema w0 = .dict D) (hw : Dict.get? D "type" = some w) (hy : Datum env ns w y) : y = .null ∨ y = .list [] := by
  cases n with
  | zero => cases h
  | succ n =>
    unfold convertF at h
    obtain ⟨s, hs, h⟩ := ok_bind h
    split at h
    · obtain ⟨e, he, h⟩ := ok_bind h
      simp [logicalSchema] at he
    · obtain ⟨vs, hvs, h⟩ := ok_bind h
      cases h
      rw [update_describe hs (by simp [Dict.keys]) (by simp [Dict.keys]), fieldSchema_shorten] at hD
      cases hD
      rw [get_described hs (by simp)] at hw
      cases hw
      cases hy with
      | union hm hy =>
        obtain ⟨i, hi⟩ := List.mem_iff_getElem?.mp hm
        obtain ⟨hl, hg⟩ := convertAll_get hvs
        have hlt := (List.getElem?_eq_some_iff.mp hi).1
        match i with
        | 0 =>
          obtain ⟨u, hu, hc⟩ := hg 0 _ rfl
          rw [hi] at hu
          cases hu
          cases n with
          | zero => cases hc
          | succ n =>
            have : convertF live (n + 1) (.null {}) = .ok (.str "null") := by
              unfold convertF
              rfl
            rw [this] at hc
            cases hc
            cases hy with
            | primitiveName h => exact .inl (primitive_null h rfl)
            | reference h => exact absurd (by decide) h.1
        | 1 =>
          obtain ⟨u, hu, hc⟩ := hg 1 _ rfl
          rw [hi] at hu
          cases hu
          cases n with
          | zero => cases hc
          | succ n =>
            unfold convertF at hc
            obtain ⟨s', hs', hc⟩ := ok_bind hc
            split at hc
            · obtain ⟨e, he, hc⟩ := ok_bind hc
              simp [logicalSchema] at he
            · obtain ⟨v', hv', hc⟩ := ok_bind hc
              cases hc
              rw [update_describe hs' (by simp [Dict.keys]) (by simp [Dict.keys]), shorten_long] at hy
              have ht : AvroData.Is (s' ++ [("type", .str "array"), ("items", v')]) "array" := by
                rw [AvroData.Is, get_described hs' (by simp)]; rfl
              have hf : Dict.get? (s' ++ [("type", .str "array"), ("items", v')]) "items" = some v' := by
                rw [get_described hs' (by simp)]; simp [Dict.get?]
              have hlt : Dict.get? (s' ++ [("type", .str "array"), ("items", v')]) "logicalType" = .none := by
                rw [get_described hs' (by simp)]; simp [Dict.get?]
              cases hy with
              | primitive h1 _ h2 => have := AvroData.is_eq ht h1; cases h2 <;> simp at this
              | logical h1 => rw [hlt] at h1; cases h1
              | fixed h1 | enum h1 | map h1 | record h1 => exact absurd (AvroData.is_eq ht h1) (by decide)
              | @array _ _ u' xs _ h2 h3 =>
                rw [hf] at h2
                cases h2
                cases xs with
                | nil => exact .inr rfl
                | cons y xs => exact absurd (h3 y (List.mem_cons_self ..)) (union_written hv')
        | i + 2 => simp at hl; omega

theorem finish_union {t : RType} (h : t.isNull = false) : ∃ ts a, Hive.finish t = .union ts a := by
  rcases Hive.finish_cases t with ⟨h1, h2⟩ | ⟨-, -, h2⟩
  · rw [h2]
    cases t <;> simp [isUnion, isNull] at h h1
    exact ⟨_, _, rfl⟩
  · exact ⟨_, _, h2⟩

theorem hive_union {t : Hive.HType} {x : Attrs} {u : RType} (h : Hive.parse x t = .ok u) (hv : t ≠ .prim .void) :
    ∃ ts a, u = .union ts a := by
  have key : ∃ w, u = Hive.finish w ∧ w.isNull = false := by
    cases t with
    | prim c =>
      rw [Hive.parse] at h
      obtain ⟨w, h1, h⟩ := bind_ok h
      cases h
      refine ⟨w, rfl, ?_⟩
      cases c <;> cases h1 <;> first | rfl | exact absurd rfl hv
    | decimal p s =>
      rw [Hive.parse] at h
      split at h
      · cases h
      · cases h; exact ⟨_, rfl, rfl⟩
    | varchar n => rw [Hive.parse] at h; cases h; exact ⟨_, rfl, rfl⟩
    | char n => rw [Hive.parse] at h; cases h; exact ⟨_, rfl, rfl⟩
    | map k v =>
      rw [Hive.parse] at h
      obtain ⟨_, _, h⟩ := bind_ok h
      obtain ⟨_, _, h⟩ := bind_ok h
      cases h; exact ⟨_, rfl, rfl⟩
    | list e =>
      rw [Hive.parse] at h
      obtain ⟨_, _, h⟩ := bind_ok h
      cases h; exact ⟨_, rfl, rfl⟩
    | union ts =>
      rw [Hive.parse] at h
      obtain ⟨_, _, h⟩ := bind_ok h
      cases h; exact ⟨_, rfl, by rw [Hive.flatten]; rfl⟩
    | struct fs =>
      rw [Hive.parse] at h
      obtain ⟨_, _, h⟩ := bind_ok h
      cases h; exact ⟨_, rfl, rfl⟩
  obtain ⟨w, rfl, hw⟩ := key
  exact finish_union hw

theorem bigquery_index : ∀ (fs : List BigQuery.Field) (ts : List RType), BigQuery.fieldsOf fs = .ok ts →
    ∀ (i : Nat) f, fs[i]? = some f → ∃ t, ts[i]? = some t ∧ BigQuery.fieldOf f = .ok t
  | [], ts, h => by simp
  | f :: fs, ts, h => by
    rw [BigQuery.fieldsOf] at h
    obtain ⟨t, h1, h⟩ := bind_ok h
    obtain ⟨us, h2, h⟩ := bind_ok h
    cases h
    intro i g hg
    cases i with
    | zero => cases hg; exact ⟨t, rfl, h1⟩
    | succ i => exact bigquery_index fs us h2 i g hg

theorem bigquery_read {fs : List BigQuery.Field} {ts : List RType} (h : BigQuery.fieldsOf fs = .ok ts) {f : BigQuery.Field}
    (hf : f ∈ fs) : ∃ t ∈ ts, BigQuery.fieldOf f = .ok t := by
  obtain ⟨i, hf⟩ := List.mem_iff_getElem?.mp hf
  obtain ⟨t, ht, h⟩ := bigquery_index fs ts h i f hf
  exact ⟨t, List.mem_of_getElem? ht, h⟩

theorem scalar_record {f : BigQuery.Field} {ft m : String} {n d df l p s : PyVal} {fs : List BigQuery.Field} {x : Val}
    (h : BigQueryScalar f x) (hf : f = .mk ft m n d df l p s fs) (hr : ft ∈ ["RECORD", "STRUCT"]) : False := by
  simp only [List.mem_cons, List.not_mem_nil, or_false] at hr
  cases h <;> cases hf <;> simp_all <;> grind

/-- What is stored in a column with a date, a time, a point in time or a number that is `REQUIRED`. -/
theorem stored_required {ok : BigQuery.Field → Val → Prop} {ft m : String} {n d df l p s : PyVal} {fs : List BigQuery.Field}
    {x : Val} (h : BigQueryStored ok (.mk ft m n d df l p s fs) x) (hm : m ∉ ["NULLABLE", "REPEATED"])
    (hft : ft ∈ pointsOfBigQuery ++ numbersOfBigQuery) :
    (∃ n, x = .instant n) ∨ (∃ n, x = .date n) ∨ (∃ n, x = .time n) ∨ ∃ m s, x = .decimal m s := by
  simp only [pointsOfBigQuery, numbersOfBigQuery, List.cons_append, List.nil_append, List.mem_cons, List.not_mem_nil,
    or_false, not_or] at hft hm
  cases h with
  | null => exact absurd rfl hm.1
  | repeated => exact absurd rfl hm.2
  | single _ h =>
    cases h with
    | record hr =>
      simp only [List.mem_cons, List.not_mem_nil, or_false] at hr
      rcases hr with rfl | rfl <;> simp at hft
    | leaf h =>
      cases h with
      | int h | float h => simp only [List.mem_cons, List.not_mem_nil, or_false] at h; grind
      | string | stringMax | json | bytes | bool => simp at hft
      | instant => exact .inl ⟨_, rfl⟩
      | date => exact .inr (.inl ⟨_, rfl⟩)
      | time => exact .inr (.inr (.inl ⟨_, rfl⟩))
      | numeric | numericP | numericPS | bignumeric | bignumericP | bignumericPS => exact .inr (.inr (.inr ⟨_, _, rfl⟩))

theorem bigquery_required {ft m : String} {n d df l p s : PyVal} {fs : List BigQuery.Field} {t : RType}
    (h : BigQuery.fieldOf (.mk ft m n d df l p s fs) = .ok t) (hm : m ∉ ["NULLABLE", "REPEATED"])
    (hft : ft ∈ pointsOfBigQuery ++ numbersOfBigQuery) : ∃ l, t.attrs.logical = .str l := by
  simp only [pointsOfBigQuery, numbersOfBigQuery, List.cons_append, List.nil_append, List.mem_cons, List.not_mem_nil,
    or_false, not_or] at hft hm
  rw [BigQuery.fieldOf] at h
  have hne : ¬(["RECORD", "STRUCT"].contains ft = true) := by
    rcases hft with rfl | rfl | rfl | rfl | rfl | rfl <;> decide
  rw [if_neg hne] at h
  obtain ⟨u, h1, h⟩ := bind_ok h
  cases h
  obtain ⟨a, e, h'⟩ := decorate_rest (mode := m) (n := n) (d := d) (df := df) (t := u) rfl
  rw [if_neg (by simpa using hm.1), if_neg (by simpa using hm.2)] at e h'
  have hl : ∃ l, u.attrs.logical = .str l := by
    rcases hft with rfl | rfl | rfl | rfl | rfl | rfl <;> cases h1 <;> exact ⟨_, rfl⟩
  obtain ⟨l, hl⟩ := hl
  refine ⟨l, ?_⟩
  rw [e, ← hl, ← h']
  cases u <;> rfl

/-! ## Arrays of PostgreSQL that can be null -/

open Relational in
theorem enforced_base {cm : CaseMap} {cfg : PgConfig} {c : Dict} {s s' : Registry} {b : RType}
    (h : (Dialect.postgresql cfg).parse cm c s = (.ok b, s')) (hd : DataType cm c "array") (he : cfg.enforce = true)
    (h1 : Dict.get? c "ATTNDIMS" = some (.int 1)) : ∃ v, b = .list (.union [.null {}, v] {}) .none (.bool true) {} := by
  obtain ⟨p, hp, h⟩ := pgParse_ok h
  obtain ⟨-, h2, h3, h4, -, h6⟩ := pgProps_ok hp
  have hp' : p.ndims = .int 1 := Option.some.inj (h6.symm.trans h1)
  rcases h with ⟨hne, -⟩ | ⟨-, v, -, -, ⟨-, -, h⟩ | ⟨he', -⟩⟩
  · exact absurd (dataType_unique h2 hd) hne
  · rw [hp'] at h
    cases h
    exact ⟨v, rfl⟩
  · rw [he] at he'
    cases he'

open Relational in
theorem nullable_list {cm : CaseMap} {c : Dict} {u f : RType} {l v : PyVal} {a : Attrs} (hn : DeclaredNullable cm c)
    (h : fieldOf cm c (.list u l v a) = .ok f) : ∃ b b', f = .union [.null {}, .list u l v b] b' := by
  obtain ⟨n, d, name, h1, -, -, rfl⟩ := fieldOf_ok h
  obtain ⟨s, hs, hu⟩ := hn
  cases h1.symm.trans hs
  simp only [hu, beq_self_eq_true, Bool.or_true, if_true]
  exact ⟨_, _, rfl⟩

end Recap.AvroRows
