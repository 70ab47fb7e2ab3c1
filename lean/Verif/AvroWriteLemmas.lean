import Verif.AvroWriteSpec
import Verif.AvroNames
import Verif.AvroRound
import Verif.AvroDataRead

/-!
# Lemmas on the data of written Avro schemas
-/

set_option autoImplicit false

namespace Recap.AvroWrite

open Values (Val Holds)
open Avro
open Avro.Spec (IntValue Header Around Other)
open AvroData (Datum Primitive Is Digits Applies Unannotated Logical FieldTypes Env)

theorem intValue_unsigned {n : Nat} {i : Int} (h : IntValue n false i) (hn : n ≤ 32) : IntValue 64 true i := by
  simp only [IntValue, Bool.false_eq_true, if_false, if_true] at h ⊢
  have := Nat.pow_le_pow_right (n := 2) (by decide) hn
  have h2 : ((2 ^ n : Nat) : Int) ≤ ((2 ^ 32 : Nat) : Int) := Int.ofNat_le.mpr this
  simp at h2
  omega

theorem any_le {k : Int} (h : (asInt (.int k)).any (· ≤ maxLong) = true) : k ≤ 9223372036854775807 := by
  rw [maxLong] at h
  exact of_decide_eq_true h

/-- The type that is written without parts and logical type, and its values. -/
theorem plain_written {t : RType} (h : Plain t) {d : Dict} (hd : leafSchema t = .ok d) :
    ∃ s, d = [("type", .str s)] ∧ ∀ x, Holds t x → Primitive s x := by
  cases h with
  | null => cases hd; exact ⟨_, rfl, fun x hx => by cases hx; exact .null⟩
  | bool => cases hd; exact ⟨_, rfl, fun x hx => by cases hx; exact .boolean⟩
  | @signed n a hl hn =>
    simp only [leafSchema, asInt, intSchema, true_and, and_true] at hd
    by_cases h32 : n ≤ 32
    · rw [if_pos h32] at hd
      cases hd
      refine ⟨_, rfl, fun x hx => ?_⟩
      cases hx with
      | int _ hi => exact .int (AvroData.intValue_mono hi (by omega))
      | instant h' | date h' | time h' => rw [hl] at h'; cases h'
    · rw [if_neg h32, if_pos (.inr hn)] at hd
      cases hd
      refine ⟨_, rfl, fun x hx => ?_⟩
      cases hx with
      | int _ hi => exact .long (AvroData.intValue_mono hi (by omega))
      | instant h' | date h' | time h' => rw [hl] at h'; cases h'
  | @unsigned n a hl hn =>
    simp only [leafSchema, asInt, intSchema, Bool.false_eq_true, false_and, if_false, and_true] at hd
    rw [if_pos (.inl hn)] at hd
    cases hd
    refine ⟨_, rfl, fun x hx => ?_⟩
    cases hx with
    | int _ hi => exact .long (intValue_unsigned hi (by omega))
  | @float n a hl =>
    simp only [leafSchema, asInt] at hd
    by_cases h32 : n ≤ 32
    · rw [if_pos h32] at hd
      cases hd
      exact ⟨_, rfl, fun x hx => by cases hx with | float h => exact .float (by omega)⟩
    · rw [if_neg h32] at hd
      by_cases h64 : n ≤ 64
      · rw [if_pos h64] at hd
        cases hd
        exact ⟨_, rfl, fun x hx => by cases hx with | float h => exact .double (by omega)⟩
      · rw [if_neg h64] at hd; cases hd
  | @string l v a hl =>
    simp only [leafSchema] at hd
    split at hd
    · rename_i hm
      cases hd
      refine ⟨_, rfl, fun x hx => ?_⟩
      cases hx with
      | uuid h' => rw [hl] at h'; cases h'
      | string _ hf =>
        rcases hf with rfl | ⟨k, rfl, hk⟩
        · simp [asInt] at hm
        · have := any_le hm
          exact .string (by omega)
    · cases hd
  | @bytes l a hl =>
    simp only [leafSchema, if_true] at hd
    split at hd
    · rename_i hm
      cases hd
      refine ⟨_, rfl, fun x hx => ?_⟩
      cases hx with
      | decimal h' => rw [hl] at h'; cases h'
      | bytes _ hf =>
        rcases hf with rfl | ⟨k, rfl, hk⟩
        · simp [asInt] at hm
        · have := any_le hm
          exact .bytes (by omega)
    · cases hd

/-- The type that is written for a logical type, and its values. -/
theorem annotated_written {t : RType} (h : Annotated t) {d D : Dict} (hd : logicalSchema t = .ok d)
    (hD : ∀ k ∈ ["type", "logicalType", "precision", "scale"], Dict.get? D k = Dict.get? d k) {x : Val}
    (hx : Holds t x) : ∃ l, Dict.get? D "logicalType" = some (.str l) ∧ Applies D l ∧ Logical D l x := by
  have h1 := hD "type" (by simp)
  have h2 := hD "logicalType" (by simp)
  have h3 := hD "precision" (by simp)
  have h4 := hD "scale" (by simp)
  cases h with
  | @decimal l v a p q hl hp hq h1p hqp =>
    cases hx with
    | bytes h' => rw [hl] at h'; cases h'
    | @decimal k _ _ p' q' m s u h' hp' hq' hu hdg hi =>
      have hpi : ((some (PyVal.int p)).bind asInt).isSome = true := rfl
      simp only [logicalSchema, hl, hp, hq, hpi, and_true, String.reduceEq, PyVal.str.injEq, false_and, and_false,
        if_false, Dict.getD, Option.getD_some] at hd
      by_cases hm : (asInt (.int k)).any (· ≤ maxLong) = true ∧ (v = .bool true ∨ v = .bool false)
      · rw [if_pos hm] at hd
        cases hd
        have hdig : Digits D p q := ⟨h3, .inl h4, h1p, hqp⟩
        rw [hp] at hp'; rw [hq] at hq'
        simp only [Option.some.injEq, PyVal.int.injEq, Int.natCast_inj] at hp' hq'
        subst hp' hq'
        have := any_le hm.1
        exact ⟨_, h2, .decimal h1 hdig, .decimal (n := k.toNat) h1 hdig hu hdg (by omega) (AvroData.intValue_mono hi (by omega))⟩
      · rw [if_neg hm] at hd; cases hd
  | @timestamp b s a hl =>
    cases hx with
    | int h' | date h' | time h' => rw [hl] at h'; simp at h'
    | @instant n _ u per k h' hu hper hi =>
      simp only [logicalSchema, hl, hu, asInt, ne_eq, not_true_eq_false, if_false, PyVal.str.injEq, String.reduceEq,
        false_and, and_false, true_and, Option.some.injEq] at hd
      split at hd
      · rename_i hm
        cases hd
        obtain ⟨hm, rfl⟩ := hm
        cases hper
        exact ⟨_, h2, .timestampMillis h1, .timestampMillis (AvroData.intValue_mono hi (by omega))⟩
      · split at hd
        · rename_i hm
          cases hd
          obtain ⟨hm, rfl⟩ := hm
          cases hper
          exact ⟨_, h2, .timestampMicros h1, .timestampMicros (AvroData.intValue_mono hi (by omega))⟩
        · cases hd
  | @date b s a hl =>
    cases hx with
    | int h' | instant h' | time h' => rw [hl] at h'; simp at h'
    | @date n _ k h' hu hi =>
      simp only [logicalSchema, hl, hu, asInt, ne_eq, not_true_eq_false, if_false, PyVal.str.injEq, String.reduceEq,
        and_false, and_true, Option.some.injEq] at hd
      split at hd
      · rename_i hm
        cases hd
        exact ⟨_, h2, .date h1, .date (AvroData.intValue_mono hi (by omega))⟩
      · cases hd
  | @time b s a hl =>
    cases hx with
    | int h' | instant h' | date h' => rw [hl] at h'; simp at h'
    | @time n _ u per k h' hu hper hi =>
      simp only [logicalSchema, hl, hu, asInt, ne_eq, not_true_eq_false, if_false, PyVal.str.injEq, String.reduceEq,
        false_and, and_false, true_and, Option.some.injEq] at hd
      split at hd
      · rename_i hm
        cases hd
        obtain ⟨hm, rfl⟩ := hm
        cases hper
        exact ⟨_, h2, .timeMillis h1, .timeMillis (AvroData.intValue_mono hi (by omega))⟩
      · split at hd
        · rename_i hm
          cases hd
          obtain ⟨hm, rfl⟩ := hm
          cases hper
          exact ⟨_, h2, .timeMicros h1, .timeMicros (AvroData.intValue_mono hi (by omega))⟩
        · cases hd
  | @uuid l v a hl =>
    simp only [logicalSchema, hl, and_true] at hd
    split at hd
    · cases hd
      cases hx with
      | string h' => rw [hl] at h'; cases h'
      | uuid _ hs => exact ⟨_, h2, .uuid h1, .uuid hs⟩
    · cases hd

/-! ## Shortening -/

theorem datum_shorten {env : Env} {ns : Option String} {D : Dict} {x : Val} (h : Datum env ns (.dict D) x) :
    Datum env ns (Avro.shorten D) x := by
  rcases shorten_cases D with h' | ⟨s, rfl, h'⟩
  · rw [h']; exact h
  · rw [h']
    cases h with
    | primitive h1 _ h3 => cases h1; exact .primitiveName h3
    | logical h1 | fixed _ _ h1 | enum _ h1 | array _ h1 | map _ h1 | record _ _ h1 => simp [Dict.get?] at h1

theorem fieldSchema_shorten (D : Dict) : fieldSchema (Avro.shorten D) = .dict D := by
  rcases shorten_cases D with h' | ⟨s, rfl, h'⟩ <;> rw [h'] <;> rfl

theorem convert_shorten {live : Registry} {n : Nat} {t : RType} {v : PyVal} (h : convertF live n t = .ok v) :
    ∃ D, v = Avro.shorten D := by
  cases n with
  | zero => cases h
  | succ n =>
    unfold convertF at h
    obtain ⟨s, hs, h⟩ := ok_bind h
    split at h
    · obtain ⟨d, hd, h⟩ := ok_bind h
      cases h; exact ⟨_, rfl⟩
    · split at h
      case h_3 =>
        split at h
        · obtain ⟨d, hd, h⟩ := ok_bind h
          cases h; exact ⟨_, rfl⟩
        · cases h
      case h_5 =>
        split at h
        · split at h
          · cases h; exact ⟨_, rfl⟩
          · obtain ⟨u, hu, h⟩ := ok_bind h
            obtain ⟨v', hv, h⟩ := ok_bind h
            split at h <;> cases h <;> exact ⟨_, rfl⟩
        · cases h
      all_goals
        obtain ⟨d, hd, h⟩ := ok_bind h
        cases h; exact ⟨_, rfl⟩

/-- The result of `from_recap`. -/
theorem fromRecap_datum {live : Registry} {t : RType} {d : Dict} (h : fromRecap live t = .ok d) :
    ∃ n v, convertF live n t = .ok v ∧ (v = .dict d ∨ ∃ s, v = .str s ∧ d = [("type", .str s)]) := by
  unfold fromRecap at h
  obtain ⟨v, hv, h⟩ := ok_bind h
  refine ⟨_, v, hv, ?_⟩
  obtain ⟨D, rfl⟩ := convert_shorten hv
  rcases shorten_cases D with h' | ⟨s, rfl, h'⟩
  · rw [h'] at h ⊢; cases h; exact .inl rfl
  · rw [h'] at h ⊢; cases h; exact .inr ⟨s, rfl, rfl⟩

/-! ## What is written -/

theorem plain_logical {t : RType} (h : Plain t) : t.attrs.logical = .none := by cases h <;> assumption

theorem convert_plain {live : Registry} {n : Nat} {t : RType} (ht : Plain t) {v : PyVal}
    (h : convertF live n t = .ok v) :
    ∃ s w, describe t.attrs = .ok s ∧ v = Avro.shorten (s ++ [("type", .str w)]) ∧ ∀ x, Holds t x → Primitive w x := by
  cases n with
  | zero => cases h
  | succ n =>
    unfold convertF at h
    obtain ⟨s, hs, h⟩ := ok_bind h
    rw [plain_logical ht] at h
    have : ∃ d, leafSchema t = .ok d ∧ v = Avro.shorten (Dict.update s d) := by
      cases ht <;> (obtain ⟨d, hd, h⟩ := ok_bind h; cases h; exact ⟨d, hd, rfl⟩)
    obtain ⟨d, hd, rfl⟩ := this
    obtain ⟨w, rfl, hw⟩ := plain_written ht hd
    rw [update_describe hs (by simp [Dict.keys]) (by simp [Dict.keys])]
    exact ⟨s, w, hs, rfl, hw⟩

theorem convert_annotated {live : Registry} {n : Nat} {t : RType} {l : String} (ht : t.attrs.logical = .str l)
    {v : PyVal} (h : convertF live n t = .ok v) :
    ∃ s d, describe t.attrs = .ok s ∧ logicalSchema t = .ok d ∧ v = Avro.shorten (s ++ d) := by
  cases n with
  | zero => cases h
  | succ n =>
    unfold convertF at h
    obtain ⟨s, hs, h⟩ := ok_bind h
    rw [ht] at h
    obtain ⟨d, hd, h⟩ := ok_bind h
    cases h
    obtain ⟨_, _, h3, h4⟩ := logicalSchema_ok hd
    refine ⟨s, d, hs, hd, ?_⟩
    rw [update_describe hs (fun k hk => ?_) h4]
    have := h3 k hk
    simp only [Avro.nestedKeys, List.mem_cons, List.not_mem_nil, or_false, not_or] at this ⊢
    exact ⟨this.2.2.2.2.1, this.2.2.2.2.2.1, this.2.2.2.2.2.2, this.2.2.2.1⟩

theorem annotated_logical {t : RType} (h : Annotated t) : ∃ l, t.attrs.logical = .str l := by
  cases h with
  | decimal h | timestamp h | date h | time h | uuid h => exact ⟨_, h⟩

theorem unannotated {D : Dict} (h : Dict.get? D "logicalType" = .none) : Unannotated D := by
  intro l hl; rw [h] at hl; cases hl

/-- The name of a structure is one that Avro allows. -/
theorem header_described {a : Attrs} {s d : Dict} (hs : describe a = .ok s) (hn : Named a)
    (hk : Dict.get? d "name" = .none) (hk' : Dict.get? d "namespace" = .none) (ns : Option String) :
    ∃ name q, Header ns (s ++ d) name q := by
  have hns : Around ns (s ++ d) ns := by
    refine .inherited ?_
    rw [get_described hs (by simp)]; exact hk'
  have hg : Dict.get? (s ++ d) "name" = Dict.get? s "name" := by
    rw [Dict.get?_append, hk]; cases Dict.get? s "name" <;> rfl
  rw [(describe_get hs).2.1] at hg
  by_cases ha : (Dict.get? a.extra "name").filter (·.truthy) = .none
  · exact ⟨_, _, .anonymous hns (hg.trans ha)⟩
  · rcases hn with hn | ⟨x, hx, hdot⟩ | ⟨p, x, hx, hdot, hp⟩
    · exfalso
      apply ha
      cases hv : Dict.get? a.extra "name" with
      | none => rfl
      | some v => simp [Option.filter, hn v hv]
    · rw [hx] at ha hg
      have : Option.filter (·.truthy) (some (PyVal.str x)) = some (PyVal.str x) := by
        simp only [Option.filter] at ha ⊢
        split <;> simp_all
      exact ⟨_, _, .short hns (hg.trans this) hdot⟩
    · rw [hx] at ha hg
      have : Option.filter (·.truthy) (some (PyVal.str (p ++ "." ++ x))) = some (PyVal.str (p ++ "." ++ x)) := by
        simp only [Option.filter] at ha ⊢
        split <;> simp_all
      exact ⟨_, _, .full hns (hg.trans this) hdot hp⟩

/-! ## The data of what is written -/

theorem datum_plain {env : Env} {live : Registry} {n : Nat} {t : RType} (ht : Plain t) {v : PyVal}
    (h : convertF live n t = .ok v) {x : Val} (hx : Holds t x) (ns : Option String) : Datum env ns v x := by
  obtain ⟨s, w, hs, rfl, hw⟩ := convert_plain ht h
  refine datum_shorten (.primitive (s := w) ?_ (unannotated ?_) (hw x hx))
  · rw [Is, get_described hs (by simp)]; rfl
  · rw [get_described hs (by simp)]; simp [Dict.get?]

theorem convertAll_get {f : RType → Except PyErr PyVal} {ts : List RType} {vs : List PyVal}
    (h : convertAll f ts = .ok vs) :
    vs.length = ts.length ∧ ∀ (i : Nat) t, ts[i]? = some t → ∃ v, vs[i]? = some v ∧ f t = .ok v := by
  induction ts generalizing vs with
  | nil => cases h; exact ⟨rfl, by simp⟩
  | cons t ts ih =>
    unfold convertAll at h
    obtain ⟨v, hv, h⟩ := ok_bind h
    obtain ⟨ws, hws, h⟩ := ok_bind h
    cases h
    obtain ⟨hl, hi⟩ := ih hws
    refine ⟨by simp [hl], fun i u hu => ?_⟩
    cases i with
    | zero => simp at hu; subst hu; exact ⟨v, by simp, hv⟩
    | succ i => simp at hu; simpa using hi i u hu

/-- The schemas of fields of which each is as `P` says. -/
theorem fieldTypes_of {f : RType → Except PyErr PyVal} {ts : List RType} {vs : List PyVal} (P : RType → PyVal → Prop)
    (h : convertAll f ts = .ok vs)
    (hP : ∀ t ∈ ts, ∀ v, f t = .ok v → ∃ D w, fieldSchema v = .dict D ∧ Dict.get? D "type" = some w ∧ P t w) :
    ∃ ws, FieldTypes (vs.map fieldSchema) ws ∧ ws.length = ts.length ∧
      ∀ (i : Nat) t w, ts[i]? = some t → ws[i]? = some w → P t w := by
  induction ts generalizing vs with
  | nil => cases h; exact ⟨[], .nil, rfl, by simp⟩
  | cons t ts ih =>
    unfold convertAll at h
    obtain ⟨v, hv, h⟩ := ok_bind h
    obtain ⟨vs', hvs, h⟩ := ok_bind h
    cases h
    obtain ⟨ws, h1, h2, h3⟩ := ih hvs (fun u hu => hP u (List.mem_cons_of_mem _ hu))
    obtain ⟨D, w, hD, hw, hp⟩ := hP t (List.mem_cons_self ..) v hv
    refine ⟨w :: ws, ?_, by simp [h2], fun i u w' hu hw' => ?_⟩
    · rw [List.map_cons, hD]; exact .cons hw h1
    · cases i with
      | zero => simp at hu hw'; subst hu hw'; exact hp
      | succ i => simp at hu hw'; exact h3 i u w' hu hw'

/-- Every value is a datum of what is written. -/
theorem values_written {env : Env} {live : Registry} {n : Nat} {t : RType} (ht : AsSchema t) {v : PyVal}
    (h : convertF live n t = .ok v) {x : Val} (hx : Holds t x) (ns : Option String) : Datum env ns v x := by
  induction n using Nat.strongRecOn generalizing t v x ns with
  | ind n ih =>
   cases n with
   | zero => cases h
   | succ n =>
    cases ht with
    | plain ht => exact datum_plain ht h hx ns
    | annotated ht =>
      obtain ⟨l, hl⟩ := annotated_logical ht
      obtain ⟨s, d, hs, hd, rfl⟩ := convert_annotated hl h
      obtain ⟨l', h1, h2, h3⟩ := annotated_written (D := s ++ d) ht hd
        (fun k hk => get_described hs (by simp at hk; rcases hk with rfl | rfl | rfl | rfl <;> simp)) hx
      exact datum_shorten (.logical h1 h2 h3)
    | @enum xs a hl =>
      unfold convertF at h
      obtain ⟨s, hs, h⟩ := ok_bind h
      simp only [RType.attrs, hl] at h hs
      obtain ⟨d, hd, h⟩ := ok_bind h
      cases h
      simp only [leafSchema] at hd
      cases hx with
      | @enum ys y _ hy =>
        cases hd
        rw [update_describe hs (by simp [Dict.keys]) (by simp [Dict.keys])]
        refine datum_shorten (.enum (xs := ys) ?_ ?_ hy)
        · rw [Is, get_described hs (by simp)]; rfl
        · rw [get_described hs (by simp)]; simp [Dict.get?]
    | @list u l w a hl hu =>
      unfold convertF at h
      obtain ⟨s, hs, h⟩ := ok_bind h
      simp only [RType.attrs, hl] at h hs
      obtain ⟨v', hv, h⟩ := ok_bind h
      cases h
      cases hx with
      | list hxs =>
        rw [update_describe hs (by simp [Dict.keys]) (by simp [Dict.keys])]
        refine datum_shorten (.array (v := v') ?_ ?_ fun y hy => ih n (by omega) hu hv (hxs y hy) ns)
        · rw [Is, get_described hs (by simp)]; rfl
        · rw [get_described hs (by simp)]; simp [Dict.get?]
    | @map l w b u a hl hlen hu =>
      unfold convertF at h
      obtain ⟨s, hs, h⟩ := ok_bind h
      simp only [RType.attrs, hl, isString, if_true] at h hs
      obtain ⟨v', hv, h⟩ := ok_bind h
      cases h
      cases hx with
      | map hk hxs =>
        rw [update_describe hs (by simp [Dict.keys]) (by simp [Dict.keys])]
        refine datum_shorten (.map (v := v') ?_ ?_ (fun p hp => ?_) fun p hp => ih n (by omega) hu hv (hxs p hp) ns)
        · rw [Is, get_described hs (by simp)]; rfl
        · rw [get_described hs (by simp)]; simp [Dict.get?]
        · obtain ⟨p1, p2⟩ := p
          have := hk _ hp
          simp only at this ⊢
          cases this with
          | string _ hf | uuid _ _ hf =>
            rcases hf with hf | ⟨k, hk, hle⟩
            · cases hf
            · cases hk; exact .string (by omega)
    | @struct fs a hl hn hfs =>
      unfold convertF at h
      obtain ⟨s, hs, h⟩ := ok_bind h
      simp only [RType.attrs, hl] at h hs
      obtain ⟨vs, hvs, h⟩ := ok_bind h
      cases h
      cases hx with
      | @struct _ xs _ hlen hxs =>
        rw [update_describe hs (by simp [Dict.keys]) (by simp [Dict.keys])]
        obtain ⟨name, q, hh⟩ := header_described (d := [("type", .str "record"), ("fields", .list (vs.map fieldSchema))])
          hs hn (by simp [Dict.get?]) (by simp [Dict.get?]) ns
        obtain ⟨ws, h1, h2, h3⟩ := fieldTypes_of (fun f w => ∀ x, Holds f x → Datum env q w x) hvs (by
          intro f hf v hv
          cases hfs f hf with
          | plain hp =>
            obtain ⟨s', w, hs', rfl, hw⟩ := convert_plain hp hv
            refine ⟨_, .str w, fieldSchema_shorten _, ?_, fun x hx => .primitiveName (hw x hx)⟩
            rw [get_described hs' (by simp)]; rfl
          | @uuid l v' b hb =>
            obtain ⟨s', d, hs', hd, rfl⟩ := convert_annotated (t := .string l v' b) hb hv
            simp only [logicalSchema, hb, and_true] at hd
            split at hd
            · cases hd
              refine ⟨_, .str "string", fieldSchema_shorten _, ?_, fun x hx => ?_⟩
              · rw [get_described hs' (by simp)]; rfl
              · cases hx with
                | string h' => rw [hb] at h'; cases h'
                | uuid _ h' => exact .primitiveName (.string (by omega))
            · cases hd
          | @union ts b hb hts =>
            cases n with
            | zero => cases hv
            | succ n =>
              unfold convertF at hv
              obtain ⟨s', hs', hv⟩ := ok_bind hv
              simp only [RType.attrs, hb] at hv hs'
              obtain ⟨us, hus, hv⟩ := ok_bind hv
              cases hv
              rw [update_describe hs' (by simp [Dict.keys]) (by simp [Dict.keys])]
              refine ⟨_, .list us, fieldSchema_shorten _, ?_, fun x hx => ?_⟩
              · rw [get_described hs' (by simp)]; rfl
              · cases hx with
                | union ht hx =>
                  obtain ⟨v', hv', hc⟩ := convertAll_mem hus ht
                  exact .union hv' (ih n (by omega) (hts _ ht) hc hx q))
        refine datum_shorten (.record ?_ hh ?_ h1 (h2.trans hlen) fun i w x hw hx => ?_)
        · rw [Is, get_described hs (by simp)]; rfl
        · rw [get_described hs (by simp)]; simp [Dict.get?]
        · have : i < fs.length := by
            rw [← h2]; exact (List.getElem?_eq_some_iff.mp hw).1
          exact h3 i fs[i] w (List.getElem?_eq_getElem this) hw x (hxs i fs[i] x (List.getElem?_eq_getElem this) hx)

/-! ## Fields -/

theorem fieldTypes_get {vs ws : List PyVal} (h : FieldTypes vs ws) :
    vs.length = ws.length ∧ ∀ (i : Nat) v, vs[i]? = some v →
      ∃ D w, v = .dict D ∧ Dict.get? D "type" = some w ∧ ws[i]? = some w := by
  induction h with
  | nil => exact ⟨rfl, by simp⟩
  | @cons d v vs ws hd _ ih =>
    refine ⟨by simp [ih.1], fun i u hu => ?_⟩
    cases i with
    | zero => simp at hu; subst hu; exact ⟨d, v, rfl, hd, by simp⟩
    | succ i => simp at hu; simpa using ih.2 i u hu

theorem shorten_long {s : Dict} {a b : String × PyVal} : Avro.shorten (s ++ [a, b]) = .dict (s ++ [a, b]) := by
  rcases shorten_cases (s ++ [a, b]) with h | ⟨x, h, _⟩
  · exact h
  · have := congrArg List.length h
    simp at this

/-- A datum of a written structure has one for each field, of the type that is written in the field. -/
theorem struct_datum {live : Registry} {fs : List RType} {a : Attrs} {d : Dict}
    (h : fromRecap live (.struct fs a) = .ok d) {env : Env} {ns : Option String} {x : Val}
    (hx : Datum env ns (.dict d) x) :
    ∃ n q xs, x = .struct xs ∧ ∀ (i : Nat) f, fs[i]? = some f → ∃ v D w y, convertF live n f = .ok v ∧
      fieldSchema v = .dict D ∧ Dict.get? D "type" = some w ∧ xs[i]? = some y ∧ Datum env q w y := by
  obtain ⟨n, v, hv, hd⟩ := fromRecap_datum h
  cases n with
  | zero => cases hv
  | succ n =>
    unfold convertF at hv
    obtain ⟨s, hs, hv⟩ := ok_bind hv
    split at hv
    · obtain ⟨e, he, hv⟩ := ok_bind hv
      simp [logicalSchema] at he
    · obtain ⟨vs, hvs, hv⟩ := ok_bind hv
      cases hv
      rw [update_describe hs (by simp [Dict.keys]) (by simp [Dict.keys]), shorten_long] at hd
      have hd : d = s ++ [("type", .str "record"), ("fields", .list (vs.map fieldSchema))] := by
        rcases hd with hd | ⟨_, hd, _⟩
        · cases hd; rfl
        · cases hd
      have ht : Is d "record" := by rw [hd, Is, get_described hs (by simp)]; rfl
      have hf : Dict.get? d "fields" = some (.list (vs.map fieldSchema)) := by
        rw [hd, get_described hs (by simp)]; simp [Dict.get?]
      have hlt : Dict.get? d "logicalType" = .none := by rw [hd, get_described hs (by simp)]; simp [Dict.get?]
      cases hx with
      | primitive h1 _ h2 => have := AvroData.is_eq ht h1; cases h2 <;> simp at this
      | logical h1 => rw [hlt] at h1; cases h1
      | fixed h1 | enum h1 | array h1 | map h1 => exact absurd (AvroData.is_eq ht h1) (by decide)
      | @record _ _ name q us ws xs _ hh hus hws hl hxs =>
        rw [hf] at hus
        cases hus
        refine ⟨n, q, xs, rfl, fun i f hfi => ?_⟩
        obtain ⟨w, hw, hc⟩ := (convertAll_get hvs).2 i f hfi
        obtain ⟨D, u, hD, hu, hwi⟩ := (fieldTypes_get hws).2 i (fieldSchema w) (by simp [hw])
        have hlt : i < xs.length := by rw [← hl]; exact (List.getElem?_eq_some_iff.mp hwi).1
        exact ⟨w, D, u, xs[i], hc, hD, hu, List.getElem?_eq_getElem hlt, hxs i u xs[i] hwi (List.getElem?_eq_getElem hlt)⟩

theorem datum_keyword {env : Env} {ns : Option String} {s : String} {x : Val} (h : Datum env ns (.str s) x)
    (hs : s ∈ ["fixed", "enum", "array", "map", "record"]) : False := by
  cases h with
  | primitiveName h => cases h <;> simp at hs
  | reference h => exact h.1 (by simp at hs; rcases hs with rfl | rfl | rfl | rfl | rfl <;> decide)

/-- Enums, fixed byte strings, lists, maps and structures are written as what only the type of a schema can be. -/
theorem inline_written {live : Registry} {n : Nat} {t : RType} (ht : Inline t) {v : PyVal}
    (h : convertF live n t = .ok v) {D : Dict} (hD : fieldSchema v = .dict D) {w : PyVal}
    (hw : Dict.get? D "type" = some w) : ∃ s, w = .str s ∧ s ∈ ["fixed", "enum", "array", "map", "record"] := by
  cases n with
  | zero => cases h
  | succ n =>
    unfold convertF at h
    obtain ⟨s, hs, h⟩ := ok_bind h
    cases ht with
    | enum hl =>
      simp only [RType.attrs, hl] at h hs
      obtain ⟨d, hd, h⟩ := ok_bind h
      cases h
      simp only [leafSchema] at hd
      split at hd <;> cases hd
      rw [update_describe hs (by simp [Dict.keys]) (by simp [Dict.keys]), fieldSchema_shorten] at hD
      cases hD
      rw [get_described hs (by simp)] at hw
      cases hw; exact ⟨_, rfl, by simp⟩
    | fixed hl =>
      simp only [RType.attrs, hl] at h hs
      obtain ⟨d, hd, h⟩ := ok_bind h
      cases h
      simp only [leafSchema, PyVal.bool.injEq, Bool.false_eq_true, if_false, if_true] at hd
      split at hd <;> cases hd
      rw [update_describe hs (by simp [Dict.keys]) (by simp [Dict.keys]), fieldSchema_shorten] at hD
      cases hD
      rw [get_described hs (by simp)] at hw
      cases hw; exact ⟨_, rfl, by simp⟩
    | list hl =>
      simp only [RType.attrs, hl] at h hs
      obtain ⟨d, hd, h⟩ := ok_bind h
      cases h
      rw [update_describe hs (by simp [Dict.keys]) (by simp [Dict.keys]), fieldSchema_shorten] at hD
      cases hD
      rw [get_described hs (by simp)] at hw
      cases hw; exact ⟨_, rfl, by simp⟩
    | map hl =>
      simp only [RType.attrs, hl] at h hs
      split at h
      · obtain ⟨d, hd, h⟩ := ok_bind h
        cases h
        rw [update_describe hs (by simp [Dict.keys]) (by simp [Dict.keys]), fieldSchema_shorten] at hD
        cases hD
        rw [get_described hs (by simp)] at hw
        cases hw; exact ⟨_, rfl, by simp⟩
      · cases h
    | struct hl =>
      simp only [RType.attrs, hl] at h hs
      obtain ⟨d, hd, h⟩ := ok_bind h
      cases h
      rw [update_describe hs (by simp [Dict.keys]) (by simp [Dict.keys]), fieldSchema_shorten] at hD
      cases hD
      rw [get_described hs (by simp)] at hw
      cases hw; exact ⟨_, rfl, by simp⟩

/-- The data of primitive types are no dates, times and decimals. -/
theorem logical_primitive {t : RType} {d : Dict} (h : logicalSchema t = .ok d) :
    ∃ s, Dict.get? d "type" = some (.str s) ∧ s ∈ ["bytes", "fixed", "int", "long", "string"] := by
  cases t <;> simp only [logicalSchema] at h <;> (repeat' split at h) <;> cases h <;> exact ⟨_, rfl, by simp⟩

theorem datum_base {env : Env} {ns : Option String} {s : String} {x : Val} (h : Datum env ns (.str s) x)
    (hs : s ∈ ["bytes", "fixed", "int", "long", "string"]) :
    (∃ i, x = .int i) ∨ (∃ k, x = .bytes k) ∨ ∃ y, x = .str y := by
  cases h with
  | primitiveName h => cases h <;> simp at hs <;> simp
  | reference h => exact absurd (by simp at hs; rcases hs with rfl | rfl | rfl | rfl | rfl <;> decide) h.1

/-! ## Lists of unions -/

/-- What is written for a union is no schema. -/
theorem union_written {live : Registry} {n : Nat} {ts : List RType} {a : Attrs} {v : PyVal}
    (h : convertF live n (.union ts a) = .ok v) {env : Env} {ns : Option String} {x : Val} : ¬Datum env ns v x := by
  cases n with
  | zero => cases h
  | succ n =>
    unfold convertF at h
    obtain ⟨s, hs, h⟩ := ok_bind h
    split at h
    · obtain ⟨e, he, h⟩ := ok_bind h
      simp [logicalSchema] at he
    · obtain ⟨vs, hvs, h⟩ := ok_bind h
      cases h
      rw [update_describe hs (by simp [Dict.keys]) (by simp [Dict.keys])]
      have ht : Dict.get? (s ++ [("type", .list vs)]) "type" = some (.list vs) := by
        rw [get_described hs (by simp)]; rfl
      have hl : Dict.get? (s ++ [("type", .list vs)]) "logicalType" = .none := by
        rw [get_described hs (by simp)]; simp [Dict.get?]
      rcases shorten_cases (s ++ [("type", .list vs)]) with h' | ⟨y, h', _⟩
      · rw [h']
        intro hx
        cases hx with
        | primitive h1 | fixed h1 | enum h1 | array h1 | map h1 | record h1 => rw [Is, ht] at h1; cases h1
        | logical h1 => rw [hl] at h1; cases h1
      · rw [h'] at ht; simp [Dict.get?] at ht

theorem list_datum {live : Registry} {u : RType} {a : Attrs} {l w : PyVal} {d : Dict}
    (h : fromRecap live (.list u l w a) = .ok d) {env : Env} {ns : Option String} {x : Val}
    (hx : Datum env ns (.dict d) x) :
    ∃ n v xs, convertF live n u = .ok v ∧ x = .list xs ∧ ∀ y ∈ xs, Datum env ns v y := by
  obtain ⟨n, v, hv, hd⟩ := fromRecap_datum h
  cases n with
  | zero => cases hv
  | succ n =>
    unfold convertF at hv
    obtain ⟨s, hs, hv⟩ := ok_bind hv
    split at hv
    · obtain ⟨e, he, hv⟩ := ok_bind hv
      simp [logicalSchema] at he
    · obtain ⟨v', hv', hv⟩ := ok_bind hv
      cases hv
      rw [update_describe hs (by simp [Dict.keys]) (by simp [Dict.keys]), shorten_long] at hd
      have hd : d = s ++ [("type", .str "array"), ("items", v')] := by
        rcases hd with hd | ⟨_, hd, _⟩
        · cases hd; rfl
        · cases hd
      have ht : Is d "array" := by rw [hd, Is, get_described hs (by simp)]; rfl
      have hf : Dict.get? d "items" = some v' := by
        rw [hd, get_described hs (by simp)]; simp [Dict.get?]
      have hlt : Dict.get? d "logicalType" = .none := by rw [hd, get_described hs (by simp)]; simp [Dict.get?]
      cases hx with
      | primitive h1 _ h2 => have := AvroData.is_eq ht h1; cases h2 <;> simp at this
      | logical h1 => rw [hlt] at h1; cases h1
      | fixed h1 | enum h1 | map h1 | record h1 => exact absurd (AvroData.is_eq ht h1) (by decide)
      | @array _ _ u' xs _ h2 h3 =>
        rw [hf] at h2
        cases h2
        exact ⟨n, v', xs, hv', rfl, h3⟩

end Recap.AvroWrite
