import Verif.AvroStoredLemmas

/-!
# The data of the Avro schemas that are written for types without references (C137)
-/

set_option autoImplicit false

namespace Recap.AvroWrite

open Values (Val Holds)
open Avro
open Avro.Spec (IntValue Header Around Other HasType)
open AvroData (Datum Primitive Is Digits Applies Unannotated Logical FieldTypes Env)

theorem shorten_annotated {D : Dict} {v : PyVal} (h : Dict.get? D "logicalType" = some v) : Avro.shorten D = .dict D := by
  rcases shorten_cases D with h' | ⟨s, rfl, _⟩
  · exact h'
  · simp [Dict.get?] at h

theorem datum_applies {env : Env} {ns : Option String} {D : Dict} {l : String}
    (h : Dict.get? D "logicalType" = some (.str l)) (ha : Applies D l) {x : Val} :
    Datum env ns (Avro.shorten D) x ↔ Logical D l x := by
  rw [shorten_annotated h]
  exact ⟨fun hx => AvroData.datum_logical hx h ha, .logical h ha⟩

theorem datum_bytes {env : Env} {ns : Option String} {D : Dict} (h1 : Is D "bytes") (h2 : Unannotated D) {x : Val} :
    Datum env ns (.dict D) x ↔ Primitive "bytes" x := by
  refine ⟨fun h => ?_, .primitive h1 h2⟩
  cases h with
  | primitive h3 _ h4 => rw [AvroData.is_eq h1 h3]; exact h4
  | logical h3 h4 => exact absurd h4 (h2 _ h3)
  | fixed h3 | enum h3 | array h3 | map h3 | record h3 => exact absurd (AvroData.is_eq h1 h3) (by decide)

/-- The data of a schema that is written for a logical type. -/
theorem logical_stored {env : Env} {ns : Option String} {t : RType} {l : String} {s d : Dict}
    (hl : t.attrs.logical = .str l) (hs : describe t.attrs = .ok s) (h : logicalSchema t = .ok d) {x : Val} :
    Datum env ns (Avro.shorten (s ++ d)) x ↔ Stored t x := by
  have nol : ¬Unlabelled t.attrs := fun h => h l hl
  have ht : Dict.get? (s ++ d) "type" = Dict.get? d "type" := get_described hs (by simp)
  have hlt : Dict.get? (s ++ d) "logicalType" = Dict.get? d "logicalType" := get_described hs (by simp)
  have hp : Dict.get? (s ++ d) "precision" = Dict.get? d "precision" := get_described hs (by simp)
  have hq : Dict.get? (s ++ d) "scale" = Dict.get? d "scale" := get_described hs (by simp)
  have hz : Dict.get? (s ++ d) "size" = Dict.get? d "size" := get_described hs (by simp)
  cases t with
  | bytes b v a =>
    simp only [logicalSchema] at h
    repeat' split at h
    · rename_i hc
      obtain ⟨-, -, hlog, -⟩ := hc
      simp only [RType.attrs] at hl nol hs
      cases h
      generalize hD : s ++ _ = D at *
      simp only [Dict.get?, Dict.getD] at ht hlt hp hq
      simp at ht hlt hp hq
      have hdig : ∀ p q, Digits D p q ↔ Places a p q := by
        intro p q
        constructor
        · rintro ⟨e1, e2, e3, e4⟩
          rw [hp] at e1
          rw [hq] at e2
          refine ⟨?_, ?_, e3, e4⟩
          · cases hg : Dict.get? a.extra "precision" with
            | none => simp [hg] at e1
            | some y => simp [hg] at e1; rw [e1]
          · simpa [Dict.getD] using e2
        · rintro ⟨e1, e2, e3, e4⟩
          refine ⟨?_, .inl ?_, e3, e4⟩
          · rw [hp]; simp [e1]
          · rw [hq]; simpa [Dict.getD] using e2
      rw [shorten_annotated hlt]
      by_cases hex : ∃ p q, Places a p q
      · obtain ⟨p, q, hpl⟩ := hex
        rw [datum_decimal ht hlt ((hdig p q).mpr hpl)]
        constructor
        · rintro ⟨m, j, u, rfl, g1, g2, g3⟩
          exact .decimal hlog hpl g1 g2 g3
        · intro h
          cases h with
          | primitive h | fixed h => exact absurd h nol
          | @decimal _ _ _ p' q' m j u _ hpl' g1 g2 g3 =>
            have e1 := hpl.precision.symm.trans hpl'.precision
            have e2 := hpl.scale.symm.trans hpl'.scale
            simp only [Option.some.injEq, PyVal.int.injEq, Int.natCast_inj] at e1 e2
            subst e1 e2
            exact ⟨m, j, u, rfl, g1, g2, g3⟩
          | undecided _ h => exact absurd hpl (h _ _)
      · have hun : Unannotated D := by
          intro l' h1 h2
          rw [hlt] at h1
          cases h1
          generalize hw : "decimal" = w at h2
          cases h2 with
          | decimal _ h => exact hex ⟨_, _, (hdig _ _).mp h⟩
          | fixedDecimal h => exact absurd (AvroData.is_eq h ht) (by decide)
          | _ => exact absurd hw (by decide)
        rw [datum_bytes ht hun]
        constructor
        · intro h
          generalize hw : "bytes" = w at h
          cases h with
          | bytes h => exact .undecided hlog (fun p q h => hex ⟨p, q, h⟩) h
          | _ => exact absurd hw (by decide)
        · intro h
          cases h with
          | primitive h | fixed h => exact absurd h nol
          | decimal _ h => exact absurd ⟨_, _, h⟩ hex
          | undecided _ _ h => exact .bytes h
    · rename_i hc
      obtain ⟨rfl, rfl, hlog, -⟩ := hc
      simp only [RType.attrs] at hl nol hs
      cases h
      generalize hD : s ++ _ = D at *
      simp [Dict.get?] at ht hlt hz
      rw [datum_applies hlt (.duration ht hz)]
      constructor
      · intro h
        generalize hw : "duration" = w at h
        cases h <;> exact absurd hw (by decide)
      · intro h
        cases h with
        | primitive h | fixed h => exact absurd h nol
        | decimal h | undecided h => rw [hlog] at h; exact absurd h (by simp)
    · cases h
  | int b sg a =>
    simp only [logicalSchema] at h
    simp only [RType.attrs] at hl nol hs
    cases hb : asInt b with
    | none => simp [hb] at h
    | some n =>
      simp only [hb] at h
      repeat' split at h
      · cases h
      all_goals try (cases h; done)
      all_goals
        rename_i hc
        cases h
        generalize hD : s ++ _ = D at *
        simp [Dict.get?] at ht hlt
      · rw [datum_applies hlt (.date ht)]
        constructor
        · intro h
          generalize hw : "date" = w at h
          cases h with
          | date h => exact .date hc.2 h
          | _ => exact absurd hw (by decide)
        · intro h
          cases h with
          | primitive h | wide h => exact absurd h nol
          | date _ h => exact .date h
          | timestamp h | timeMillis h | timeMicros h => rw [hc.2] at h; exact absurd h (by simp)
      · rw [datum_applies hlt (.timeMillis ht)]
        constructor
        · intro h
          generalize hw : "time-millis" = w at h
          cases h with
          | timeMillis h => exact .timeMillis hc.2.1 hc.2.2 h
          | _ => exact absurd hw (by decide)
        · intro h
          cases h with
          | primitive h | wide h => exact absurd h nol
          | timeMillis _ _ h => exact .timeMillis h
          | timeMicros _ h => rw [hc.2.2] at h; exact absurd h (by simp)
          | timestamp h | date h => rw [hc.2.1] at h; exact absurd h (by simp)
      · rw [datum_applies hlt (.timeMicros ht)]
        constructor
        · intro h
          generalize hw : "time-micros" = w at h
          cases h with
          | timeMicros h => exact .timeMicros hc.2.1 hc.2.2 h
          | _ => exact absurd hw (by decide)
        · intro h
          cases h with
          | primitive h | wide h => exact absurd h nol
          | timeMicros _ _ h => exact .timeMicros h
          | timeMillis _ h => rw [hc.2.2] at h; exact absurd h (by simp)
          | timestamp h | date h => rw [hc.2.1] at h; exact absurd h (by simp)
      · rw [datum_applies hlt (.timestampMillis ht)]
        constructor
        · intro h
          generalize hw : "timestamp-millis" = w at h
          cases h with
          | timestampMillis h => exact .timestamp hc.2.1 hc.2.2 rfl h
          | _ => exact absurd hw (by decide)
        · intro h
          cases h with
          | primitive h | wide h => exact absurd h nol
          | timestamp _ h1 h2 h3 => rw [hc.2.2] at h1; cases h1; cases h2; exact .timestampMillis h3
          | timeMillis h | timeMicros h | date h => rw [hc.2.1] at h; exact absurd h (by simp)
      · rw [datum_applies hlt (.timestampMicros ht)]
        constructor
        · intro h
          generalize hw : "timestamp-micros" = w at h
          cases h with
          | timestampMicros h => exact .timestamp hc.2.1 hc.2.2 rfl h
          | _ => exact absurd hw (by decide)
        · intro h
          cases h with
          | primitive h | wide h => exact absurd h nol
          | timestamp _ h1 h2 h3 => rw [hc.2.2] at h1; cases h1; cases h2; exact .timestampMicros h3
          | timeMillis h | timeMicros h | date h => rw [hc.2.1] at h; exact absurd h (by simp)
  | string b v a =>
    simp only [logicalSchema] at h
    simp only [RType.attrs] at hl nol hs
    split at h
    · rename_i hc
      cases h
      generalize hD : s ++ _ = D at *
      simp [Dict.get?] at ht hlt
      rw [datum_applies hlt (.uuid ht)]
      constructor
      · intro h
        generalize hw : "uuid" = w at h
        cases h with
        | uuid h => exact .uuid hc.2 h
        | _ => exact absurd hw (by decide)
      · intro h
        cases h with
        | primitive h => exact absurd h nol
        | uuid _ h => exact .uuid h
    · cases h
  | _ => cases h

/-- A field has only the type in which the values of the logical type are stored. -/
theorem logical_field {env : Env} {ns : Option String} {t : RType} {l : String} {s d : Dict} {w : PyVal}
    (hl : t.attrs.logical = .str l) (hs : describe t.attrs = .ok s) (h : logicalSchema t = .ok d)
    (hw : Dict.get? (s ++ d) "type" = some w) {x : Val} : Datum env ns w x ↔ StoredField t x := by
  have key : ∀ {b : String}, Base t b → w = .str b → (Datum env ns w x ↔ StoredField t x) := by
    rintro b hb rfl
    rw [datum_str (base_primitive hb)]
    refine ⟨fun h => .base hb h, fun h => ?_⟩
    cases h with
    | base hb' h => rw [base_unique hb hb']; exact h
    | union => cases hb
  rw [get_described hs (by simp)] at hw
  cases t with
  | bytes b v a =>
    simp only [logicalSchema] at h
    repeat' split at h
    · rename_i hc
      cases h; cases hw
      exact key (.decimal hc.2.2.1) rfl
    · rename_i hc
      obtain ⟨rfl, rfl, hlog, -⟩ := hc
      cases h; cases hw
      refine ⟨fun h => (datum_keyword h (by simp)).elim, fun h => ?_⟩
      cases h with
      | base h =>
        generalize hv : PyVal.bool false = vv at h
        cases h with
        | bytes => cases hv
        | decimal h => rw [hlog] at h; exact absurd h (by simp)
    · cases h
  | int b sg a =>
    simp only [logicalSchema] at h
    cases hb : asInt b with
    | none => simp [hb] at h
    | some n =>
      simp only [hb] at h
      repeat' split at h
      · cases h
      all_goals try (cases h; done)
      all_goals
        rename_i hc
        cases h; cases hw
      · exact key (.date hc.2) rfl
      · exact key (.timeMillis hc.2.1 hc.2.2) rfl
      · exact key (.timeMicros hc.2.1 hc.2.2) rfl
      · exact key (.timestamp hc.2.1) rfl
      · exact key (.timestamp hc.2.1) rfl
  | string b v a =>
    simp only [logicalSchema] at h
    split at h
    · rename_i hc
      cases h; cases hw
      exact key (.uuid hc.2) rfl
    · cases h
  | _ => cases h

/-- Only the names that Avro allows are those of a record. -/
theorem described_header {a : Attrs} {s d : Dict} (hs : describe a = .ok s) (hk : Dict.get? d "name" = .none)
    {ns q : Option String} {name : Option (String × String)} (h : Header ns (s ++ d) name q) : Named a := by
  have hg : Dict.get? (s ++ d) "name" = Dict.get? s "name" := by
    rw [Dict.get?_append, hk]; cases Dict.get? s "name" <;> rfl
  rw [(describe_get hs).2.1] at hg
  have key : ∀ {v : PyVal}, Dict.get? (s ++ d) "name" = some v → Dict.get? a.extra "name" = some v := by
    intro v hv
    rw [hg] at hv
    exact (Option.filter_eq_some_iff.mp hv).1
  cases h with
  | anonymous _ h1 =>
    refine .inl fun v hv => ?_
    rw [hg, hv] at h1
    simpa [Option.filter] using h1
  | short _ h1 h2 => exact .inr (.inl ⟨_, key h1, h2⟩)
  | full _ h1 h2 h3 => exact .inr (.inr ⟨_, _, key h1, h2, h3⟩)

/-- Each of the schemas is that of one of the types. -/
theorem convertAll_back {f : RType → Except PyErr PyVal} {ts : List RType} {vs : List PyVal}
    (h : convertAll f ts = .ok vs) {v : PyVal} (hv : v ∈ vs) : ∃ t ∈ ts, f t = .ok v := by
  induction ts generalizing vs with
  | nil => cases h; cases hv
  | cons t ts ih =>
    unfold convertAll at h
    obtain ⟨u, hu, h⟩ := ok_bind h
    obtain ⟨us, hus, h⟩ := ok_bind h
    cases h
    rcases List.mem_cons.mp hv with rfl | hv
    · exact ⟨t, by simp, hu⟩
    · obtain ⟨t', h1, h2⟩ := ih hus hv
      exact ⟨t', by simp [h1], h2⟩

/-- The data of the schema of a type without references. -/
theorem stored_written {env : Env} {live : Registry} {n : Nat} {t : RType} (ht : Whole t) {v : PyVal}
    (h : convertF live n t = .ok v) :
    (∀ ns x, Datum env ns v x ↔ Stored t x) ∧
      ∃ D w, fieldSchema v = .dict D ∧ Dict.get? D "type" = some w ∧ ∀ ns x, Datum env ns w x ↔ StoredField t x := by
  induction n using Nat.strongRecOn generalizing t v with
  | ind n ih =>
   cases n with
   | zero => cases h
   | succ n =>
    by_cases hl : Unlabelled t.attrs
    · have h0 := h
      unfold convertF at h
      obtain ⟨s, hs, h⟩ := ok_bind h
      split at h
      · rename_i l hl'; exact absurd hl' (hl l)
      cases ht with
      | mk hp hc =>
      have leaf : (∃ d, leafSchema t = .ok d ∧ v = Avro.shorten (Dict.update s d)) →
          (∀ ns x, Datum env ns v x ↔ Stored t x) ∧
            ∃ D w, fieldSchema v = .dict D ∧ Dict.get? D "type" = some w ∧
              ∀ ns x, Datum env ns w x ↔ StoredField t x := by
        rintro ⟨d, hd, rfl⟩
        have hu : Dict.update s d = s ++ d ∧ ∃ w, Dict.get? d "type" = some w := by
          rcases leaf_written hl hd with ⟨w, rfl, -⟩ | ⟨b, sg, a, n, p, rfl, -, -, -, -, -, rfl⟩ | ⟨b, a, rfl, rfl⟩ | ⟨xs, a, rfl, rfl⟩ <;>
            exact ⟨update_describe hs (by simp [Dict.keys]) (by simp [Dict.keys]), _, rfl⟩
        obtain ⟨hu, w, hw⟩ := hu
        rw [hu]
        have hw' : Dict.get? (s ++ d) "type" = some w := by rw [get_described hs (by simp)]; exact hw
        exact ⟨fun ns x => leaf_stored hl hs hd, _, w, fieldSchema_shorten _, hw', fun ns x => leaf_field hl hs hd hw'⟩
      cases t with
      | proxy r a => exact absurd rfl (hp r a)
      | struct fs a =>
        obtain ⟨vs, hvs, h⟩ := ok_bind h
        cases h
        rw [update_describe hs (by simp [Dict.keys]) (by simp [Dict.keys]), fieldSchema_shorten, shorten_long]
        have hi : Is (s ++ [("type", .str "record"), ("fields", .list (vs.map fieldSchema))]) "record" := by
          rw [Is, get_described hs (by simp)]; rfl
        have hd : Dict.get? (s ++ [("type", .str "record"), ("fields", .list (vs.map fieldSchema))]) "logicalType" = .none := by
          rw [get_described hs (by simp)]; simp [Dict.get?]
        have hf : Dict.get? (s ++ [("type", .str "record"), ("fields", .list (vs.map fieldSchema))]) "fields" =
            some (.list (vs.map fieldSchema)) := by
          rw [get_described hs (by simp)]; simp [Dict.get?]
        obtain ⟨ws, h1, h2, h3⟩ := fieldTypes_of (fun f w => ∀ q x, Datum env q w x ↔ StoredField f x) hvs (by
          intro f hf v hv
          exact (ih n (by omega) (hc f hf) hv).2)
        refine ⟨fun ns x => ⟨fun h => ?_, fun h => ?_⟩, _, _, rfl, hi, fun ns x => ⟨fun h => (datum_keyword h (by simp)).elim, fun h => ?_⟩⟩
        · cases h with
          | primitive h1 _ h2 => exact (AvroData.not_primitive ⟨hi, hd⟩ h1 h2 (by decide)).elim
          | logical h1 => rw [hd] at h1; cases h1
          | fixed h1 | enum h1 | array h1 | map h1 => exact absurd (AvroData.is_eq hi h1) (by decide)
          | @record _ _ name q us ws' xs _ g1 g2 g3 g4 g5 =>
            rw [hf] at g2
            cases g2
            have e := AvroData.fieldTypes_eq h1 g3
            subst e
            refine .struct hl (described_header hs (by simp [Dict.get?]) g1) (h2.symm.trans g4) fun i f y e1 e2 => ?_
            have : i < ws.length := by rw [h2]; exact (List.getElem?_eq_some_iff.mp e1).1
            exact (h3 i f ws[i] e1 (List.getElem?_eq_getElem this) q y).mp (g5 i ws[i] y (List.getElem?_eq_getElem this) e2)
        · cases h with
          | primitive _ h => cases h
          | struct _ hn hlen hxs =>
            obtain ⟨name, q, hh⟩ := header_described (d := [("type", .str "record"), ("fields", .list (vs.map fieldSchema))])
              hs hn (by simp [Dict.get?]) (by simp [Dict.get?]) ns
            refine .record hi hh hf h1 (h2.trans hlen) fun i w x hw hx => ?_
            have : i < fs.length := by rw [← h2]; exact (List.getElem?_eq_some_iff.mp hw).1
            exact (h3 i fs[i] w (List.getElem?_eq_getElem this) hw q x).mpr (hxs i fs[i] x (List.getElem?_eq_getElem this) hx)
        · cases h with
          | base h => cases h
      | list u b w a =>
        obtain ⟨v', hv, h⟩ := ok_bind h
        cases h
        rw [update_describe hs (by simp [Dict.keys]) (by simp [Dict.keys]), fieldSchema_shorten, shorten_long]
        have hi : Is (s ++ [("type", .str "array"), ("items", v')]) "array" := by
          rw [Is, get_described hs (by simp)]; rfl
        have hd : Dict.get? (s ++ [("type", .str "array"), ("items", v')]) "logicalType" = .none := by
          rw [get_described hs (by simp)]; simp [Dict.get?]
        have hf : Dict.get? (s ++ [("type", .str "array"), ("items", v')]) "items" = some v' := by
          rw [get_described hs (by simp)]; simp [Dict.get?]
        have hu := (ih n (by omega) (hc u (by simp [Recap.Spec.children])) hv).1
        refine ⟨fun ns x => ⟨fun h => ?_, fun h => ?_⟩, _, _, rfl, hi, fun ns x => ⟨fun h => (datum_keyword h (by simp)).elim, fun h => ?_⟩⟩
        · obtain ⟨xs, rfl, hxs⟩ := AvroData.datum_array h ⟨hi, hd⟩ hf
          exact .list hl fun x hx => (hu ns x).mp (hxs x hx)
        · cases h with
          | primitive _ h => cases h
          | list _ hxs => exact .array hi hf fun x hx => (hu ns x).mpr (hxs x hx)
        · cases h with
          | base h => cases h
      | map k u a =>
        simp only at h
        split at h
        · obtain ⟨v', hv, h⟩ := ok_bind h
          cases h
          rw [update_describe hs (by simp [Dict.keys]) (by simp [Dict.keys]), fieldSchema_shorten, shorten_long]
          have hi : Is (s ++ [("type", .str "map"), ("values", v')]) "map" := by
            rw [Is, get_described hs (by simp)]; rfl
          have hd : Dict.get? (s ++ [("type", .str "map"), ("values", v')]) "logicalType" = .none := by
            rw [get_described hs (by simp)]; simp [Dict.get?]
          have hf : Dict.get? (s ++ [("type", .str "map"), ("values", v')]) "values" = some v' := by
            rw [get_described hs (by simp)]; simp [Dict.get?]
          have hu := (ih n (by omega) (hc u (by simp [Recap.Spec.children])) hv).1
          refine ⟨fun ns x => ⟨fun h => ?_, fun h => ?_⟩, _, _, rfl, hi, fun ns x => ⟨fun h => (datum_keyword h (by simp)).elim, fun h => ?_⟩⟩
          · obtain ⟨ps, rfl, hks, hxs⟩ := AvroData.datum_map h ⟨hi, hd⟩ hf
            exact .map hl hks fun p hp => (hu ns _).mp (hxs p hp)
          · cases h with
            | primitive _ h => cases h
            | map _ hks hxs => exact .map hi hf hks fun p hp => (hu ns _).mpr (hxs p hp)
          · cases h with
            | base h => cases h
        · cases h
      | union ts a =>
        obtain ⟨us, hus, h⟩ := ok_bind h
        cases h
        refine ⟨fun ns x => ⟨fun h => absurd h (union_written h0), fun h => ?_⟩, ?_⟩
        · cases h with
          | primitive _ h => cases h
        · rw [update_describe hs (by simp [Dict.keys]) (by simp [Dict.keys]), fieldSchema_shorten]
          refine ⟨_, .list us, rfl, by rw [get_described hs (by simp)]; rfl, fun ns x => ⟨fun h => ?_, fun h => ?_⟩⟩
          · cases h with
            | union hv hx =>
              obtain ⟨t, ht, hc'⟩ := convertAll_back hus hv
              exact .union hl ht (((ih n (by omega) (hc t ht) hc').1 _ _).mp hx)
          · cases h with
            | base h => cases h
            | union _ ht hx =>
              obtain ⟨v', hv', hc'⟩ := convertAll_mem hus ht
              exact .union hv' (((ih n (by omega) (hc _ ht) hc').1 _ _).mpr hx)
      | _ =>
        obtain ⟨d, hd, h⟩ := ok_bind h
        cases h
        exact leaf ⟨d, hd, rfl⟩
    · have : ∃ l, t.attrs.logical = .str l := Classical.byContradiction fun hx => hl fun l hl' => hx ⟨l, hl'⟩
      obtain ⟨l, hl⟩ := this
      obtain ⟨s, d, hs, hd, rfl⟩ := convert_annotated hl h
      obtain ⟨w, hw, -⟩ := logical_primitive hd
      have hw' : Dict.get? (s ++ d) "type" = some (.str w) := by rw [get_described hs (by simp)]; exact hw
      exact ⟨fun ns x => logical_stored hl hs hd, _, _, fieldSchema_shorten _, hw', fun ns x => logical_field hl hs hd hw'⟩

/-- The same for the schema that `from_recap` gives. -/
theorem stored_schema {live : Registry} {t : RType} (ht : Whole t) {d : Dict}
    (h : fromRecap live t = .ok d) (ns : Option String) (x : Val) : Datum [] ns (.dict d) x ↔ Stored t x := by
  obtain ⟨n, v, hv, hd⟩ := fromRecap_datum h
  have hs := (stored_written (env := []) ht hv).1 ns x
  rcases hd with rfl | ⟨s, rfl, rfl⟩
  · exact hs
  · rw [← hs]
    constructor
    · intro h
      exact datum_shorten h
    · intro h
      cases h with
      | primitiveName h => exact .primitive (s := s) rfl (unannotated (by simp [Dict.get?])) h
      | reference _ h => cases h

end Recap.AvroWrite
