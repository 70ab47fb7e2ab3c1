import Verif.JsonKeptLemmas
import Verif.JsonBackLemmas
import Verif.JsonRefsThms

/-!
# What the types are like that are read from schemas without references (lemmas for C152)
-/

set_option autoImplicit false

namespace Recap.JsonData

open Json
open Json.Spec (nameOf OptionalField Inside Spans IsReference BuiltinOnly)

variable {refs : String → PyVal → Prop} {live : Registry} {env : Url.Env}

/-! ## What is inside a field -/

theorem inside_null {u : RType} {a : Attrs} (h : Inside u (.null a)) : u = .null a := by cases h; rfl

/-- A type inside a field is null, the field itself, or comes from a type inside the one that was read. -/
theorem inside_field {u t : RType} {name : String} {l : Bool} (hs : l = false → Single t)
    (h : Inside u (named name (if l then t else optionalField t))) :
    u = .null {} ∨ (∃ x b, Inside x t ∧ u = x.withAttrs b ∧ b.alias = x.attrs.alias) ∨
      ∃ w a, u = .union [.null {}, w] a ∧ (a.alias = .none ∨ a.alias = t.attrs.alias) ∧ w.isNull = false := by
  have self : ∀ {x}, Inside x t → ∃ y b, Inside y t ∧ x = y.withAttrs b ∧ b.alias = y.attrs.alias :=
    fun {x} hx => ⟨x, x.attrs, hx, (withAttrs_self x).symm, rfl⟩
  cases l with
  | true =>
    rcases inside_with h with rfl | h
    · exact .inr (.inl ⟨t, _, .refl, rfl, rfl⟩)
    · exact .inr (.inl (self h))
  | false =>
    obtain ⟨w, a, e, hw, -, hc⟩ := single_optional (hs rfl)
    simp only [Bool.false_eq_true, if_false] at h
    rw [e] at h
    have ha : a.alias = .none ∨ a.alias = t.attrs.alias := by
      rcases hc with ⟨-, -, -, h⟩ | ⟨b, rfl, h⟩
      · exact .inl h
      · exact .inr h
    rcases inside_with h with rfl | h'
    · exact .inr (.inr ⟨w, _, rfl, ha, hw⟩)
    · cases h' with
      | refl => exact .inr (.inr ⟨w, a, rfl, ha, hw⟩)
      | member hm hx =>
        simp only [List.mem_cons, List.not_mem_nil, or_false] at hm
        rcases hm with rfl | rfl
        · exact .inl (inside_null hx)
        · refine .inr (.inl ?_)
          rcases hc with ⟨-, -, ⟨b, rfl, hb⟩, -⟩ | ⟨b, rfl, -⟩
          · rcases inside_with hx with rfl | hx
            · exact ⟨t, b, .refl, rfl, hb⟩
            · exact self hx
          · exact self (.member (by simp) hx)

/-! ## No references, no maps -/

theorem kept_no_proxy {v : PyVal} (hk : Kept v) : ∀ {i i' : Ids} {t : RType}, Json.parse env v i = .ok (t, i') →
    ∀ {u}, Inside u t → u.isProxy = false ∧ ∀ k w a, u ≠ .map k w a := by
  induction hk with
  | @mk d h1 h2 h3 h4 h5 h6 ih4 ih5 =>
    intro i i' t h u hu
    obtain ⟨e, ids1, he, hr⟩ := parse_dict_ok h
    cases hr with
    | @union xs ts _ ht hp =>
      cases hu with
      | refl => exact ⟨rfl, nofun⟩
      | member hm hu =>
        obtain ⟨ss, rfl, -⟩ := h3 _ ht
        obtain ⟨x, hx, j, j', hw⟩ := parseAll_back hp hm
        obtain ⟨s, -, rfl⟩ := List.mem_map.mp hx
        rcases word_read hw with ⟨-, rfl⟩ | ⟨-, rfl⟩ | ⟨-, rfl⟩ | ⟨-, rfl⟩ | ⟨-, rfl⟩ <;> cases hu <;> exact ⟨rfl, nofun⟩
    | list ht hi hp =>
      cases hu with
      | refl => exact ⟨rfl, nofun⟩
      | list hu => exact ih4 _ hi hp hu
    | @struct ps ts _ ht hps hp =>
      cases hu with
      | refl => exact ⟨rfl, nofun⟩
      | field hm hu =>
        obtain ⟨name, prop, w, l, j, j', g1, g2, g3, rfl⟩ := JsonData.parseProps_mem hp hm
        rcases inside_field (fun hl => oneType_single (h6 _ _ _ hps g1 (fun ha => by have := (asked_iff g3).mp ha; simp_all))
            (kept_refs (h5 _ _ _ hps g1)) g2) hu with rfl | ⟨x, b, hx, rfl, -⟩ | ⟨w', a, rfl, -⟩
        · exact ⟨rfl, nofun⟩
        · obtain ⟨k1, k2⟩ := ih5 _ _ _ hps g1 g2 hx
          refine ⟨by rw [isProxy_withAttrs]; exact k1, ?_⟩
          cases x <;> simp only [RType.withAttrs, ne_eq, reduceCtorEq, not_false_eq_true, implies_true]
          exact absurd rfl (k2 _ _ _)
        · exact ⟨rfl, nofun⟩
    | leaf _ hl =>
      obtain ⟨s, -, hc, -⟩ := leaf_read hl h1 h2
      rcases hc with ⟨rfl, ⟨_, _, _, rfl⟩ | ⟨_, _, _, rfl⟩⟩ | ⟨rfl, _, _, rfl⟩ | ⟨rfl, _, _, _, rfl⟩ | ⟨rfl, _, rfl⟩ | ⟨rfl, _, rfl⟩ <;>
        cases hu <;> exact ⟨rfl, nofun⟩

theorem kept_builtin {v : PyVal} (hk : Kept v) {i i' : Ids} {t : RType} (h : Json.parse env v i = .ok (t, i')) :
    BuiltinOnly live t := by
  intro r a hi
  have := (kept_no_proxy hk h hi).1
  cases this

/-! ## Names of fields -/

theorem props_names {f : PyVal → Ids → Except PyErr (RType × Ids)} {req : PyVal} {ps : Dict} {i i' : Ids} {ts : List RType}
    (h : parseProps f req ps i = .ok (ts, i')) : ts.map nameOf = ps.map (fun kv => some (.str kv.1)) := by
  induction ps generalizing i ts with
  | nil => cases h; rfl
  | cons kv ps ih =>
    obtain ⟨name, prop⟩ := kv
    simp only [parseProps] at h
    obtain ⟨⟨t, i1⟩, h1, h⟩ := ok_bind h
    obtain ⟨b, hb, h⟩ := ok_bind h
    obtain ⟨⟨ts', i2⟩, h2, h⟩ := ok_bind h
    cases h
    simp only [List.map_cons, ih h2, named_name]

theorem kept_names {v : PyVal} (hk : Kept v) (hc : Covered v) : ∀ {i i' : Ids} {t : RType}, Json.parse env v i = .ok (t, i') →
    NamesDiffer t := by
  induction hk with
  | @mk d h1 h2 h3 h4 h5 h6 ih4 ih5 =>
    intro i i' t h fs a hu
    obtain ⟨e, ids1, he, hr⟩ := parse_dict_ok h
    cases hc with
    | mk c1 c2 c3 c4 c5 c6 =>
    cases hr with
    | @union xs ts _ ht hp =>
      cases hu with
      | member hm hu =>
        obtain ⟨ss, rfl, -⟩ := h3 _ ht
        obtain ⟨x, hx, j, j', hw⟩ := parseAll_back hp hm
        obtain ⟨s, -, rfl⟩ := List.mem_map.mp hx
        rcases word_read hw with ⟨-, rfl⟩ | ⟨-, rfl⟩ | ⟨-, rfl⟩ | ⟨-, rfl⟩ | ⟨-, rfl⟩ <;> cases hu
    | list ht hi hp =>
      cases hu with
      | list hu => exact ih4 _ hi (c4 _ hi) hp _ _ hu
    | @struct ps ts _ ht hps hp =>
      cases hu with
      | refl =>
        obtain ⟨ps', e', hn⟩ := c5 _ hps
        cases e'
        rw [props_names hp]
        rw [Dict.keys, List.Nodup, List.pairwise_map] at hn
        rw [List.Nodup, List.pairwise_map]
        exact hn.imp (fun hab e => hab (by simpa using e))
      | field hm hu =>
        obtain ⟨name, prop, w, l, j, j', g1, g2, g3, rfl⟩ := JsonData.parseProps_mem hp hm
        rcases inside_field (fun hl => oneType_single (h6 _ _ _ hps g1 (fun ha => by have := (asked_iff g3).mp ha; simp_all))
            (kept_refs (h5 _ _ _ hps g1)) g2) hu with e | ⟨x, b, hx, e, -⟩ | ⟨w', a', e, -⟩
        · cases e
        · cases x <;> simp only [RType.withAttrs, reduceCtorEq, RType.struct.injEq] at e
          obtain ⟨rfl, -⟩ := e
          exact ih5 _ _ _ hps g1 (c6 _ _ _ hps g1) g2 _ _ hx
        · cases e
    | leaf _ hl =>
      obtain ⟨s, -, hc, -⟩ := leaf_read hl h1 h2
      rcases hc with ⟨rfl, ⟨_, _, _, rfl⟩ | ⟨_, _, _, rfl⟩⟩ | ⟨rfl, _, _, rfl⟩ | ⟨rfl, _, _, _, rfl⟩ | ⟨rfl, _, rfl⟩ | ⟨rfl, _, rfl⟩ <;>
        cases hu

/-! ## Kinds of alternatives -/

theorem distinct_attrs {t : RType} (a : Attrs) (hu : t.isUnion = false) (h : Distinct t) : Distinct (t.withAttrs a) := by
  cases h <;> first | (cases hu; done) | (simp only [RType.withAttrs]; constructor <;> assumption) | (simp only [RType.withAttrs]; constructor)

theorem distinct_named {t : RType} {name : String} (h : Distinct t) : Distinct (named name t) := by
  cases h with
  | optional ho hd => exact .optional (optional_named.mpr ho) hd
  | union h1 h2 h3 => exact .union h1 h2 h3
  | list h => exact .list h
  | map h => exact .map h
  | struct h => exact .struct h
  | _ => exact distinct_attrs _ rfl (by constructor)

theorem distinct_single {t : RType} (hs : Single t) (h : Distinct t) : Distinct (optionalField t) := by
  obtain ⟨w, a, e, hw, hd, hc⟩ := single_optional hs
  rw [e]
  refine .optional ⟨_, _, rfl, optional_pair hw hd⟩ (fun u hu => ?_)
  simp only [List.mem_cons, List.not_mem_nil, or_false] at hu
  rcases hu with rfl | rfl
  · exact .null
  · rcases hc with ⟨hu, -, ⟨b, rfl, -⟩, -⟩ | ⟨b, rfl, -⟩
    · exact distinct_attrs b hu h
    · cases h with
      | optional _ h => exact h _ (by simp)
      | union h => exact h _ (by simp)

theorem kept_distinct {v : PyVal} (hk : Kept v) : ∀ {i i' : Ids} {t : RType}, Json.parse env v i = .ok (t, i') → Distinct t := by
  induction hk with
  | @mk d h1 h2 h3 h4 h5 h6 ih4 ih5 =>
    intro i i' t h
    obtain ⟨e, ids1, he, hr⟩ := parse_dict_ok h
    cases hr with
    | @union xs ts _ ht hp =>
      obtain ⟨ss, rfl, hn, hi, -⟩ := h3 _ ht
      have hw : ∀ t ∈ ts, ∃ s i i', Json.parse env (.str s) i = .ok (t, i') := by
        intro t hm
        obtain ⟨x, hx, j, j', hw⟩ := parseAll_back hp hm
        obtain ⟨s, -, rfl⟩ := List.mem_map.mp hx
        exact ⟨s, j, j', hw⟩
      refine .union (fun t ht => ?_) (fun t ht => ?_) ?_
      · obtain ⟨s, j, j', hw⟩ := hw t ht
        rcases word_read hw with ⟨-, rfl⟩ | ⟨-, rfl⟩ | ⟨-, rfl⟩ | ⟨-, rfl⟩ | ⟨-, rfl⟩ <;> constructor
      · obtain ⟨s, j, j', hw⟩ := hw t ht
        rw [word_family hw]; rfl
      · rw [words_kinds hp]; exact family_nodup hn hi
    | list ht hi hp => exact .list (ih4 _ hi hp)
    | @struct ps ts _ ht hps hp =>
      refine .struct fun f hf => ?_
      obtain ⟨name, prop, w, l, j, j', g1, g2, g3, rfl⟩ := JsonData.parseProps_mem hp hf
      refine distinct_named ?_
      have hd := ih5 _ _ _ hps g1 g2
      cases l with
      | true => exact hd
      | false =>
        exact distinct_single (oneType_single (h6 _ _ _ hps g1 (fun ha => by have := (asked_iff g3).mp ha; cases this))
            (kept_refs (h5 _ _ _ hps g1)) g2) hd
    | leaf _ hl =>
      obtain ⟨s, -, hc, -⟩ := leaf_read hl h1 h2
      rcases hc with ⟨rfl, ⟨_, _, _, rfl⟩ | ⟨_, _, _, rfl⟩⟩ | ⟨rfl, _, _, rfl⟩ | ⟨rfl, _, _, _, rfl⟩ | ⟨rfl, _, rfl⟩ | ⟨rfl, _, rfl⟩ <;>
        constructor

/-! ## Aliases -/

theorem no_id_alias {d e : Dict} {i i1 : Ids} (he : extraAttrs env (.dict d) i = .ok (e, i1)) (hd : "$id" ∉ Dict.keys d) :
    (attrsOf e).alias = .none := by
  simp only [extraAttrs, Dict.get?_eq_none_iff.mpr hd, Except.ok.injEq, Prod.mk.injEq] at he
  obtain ⟨rfl, -⟩ := he
  have : ∀ k k' : String, k' ≠ "alias" → Dict.get? (copied d k k') "alias" = .none := by
    intro k k' hk
    unfold copied
    split <;> simp [Dict.get?, hk]
  simp only [attrsOf, Dict.getD, Dict.get?_append, this _ "doc" (by decide), this _ "default" (by decide)]
  rfl

/-- What is inside the type, apart from itself, is from the schemas in the document, apart from itself. -/
theorem kept_aliases {v : PyVal} (hk : Kept v) : ∀ {i i' : Ids} {t : RType}, Json.parse env v i = .ok (t, i') →
    (∀ d, Part (.dict d) v → "$id" ∉ Dict.keys d) → ∀ {u}, Inside u t → u.attrs.alias = .none := by
  induction hk with
  | @mk d h1 h2 h3 h4 h5 h6 ih4 ih5 =>
    intro i i' t h hid u hu
    obtain ⟨e, ids1, he, hr⟩ := parse_dict_ok h
    have hself := no_id_alias he (hid _ .refl)
    cases hr with
    | @union xs ts _ ht hp =>
      cases hu with
      | refl => exact hself
      | member hm hu =>
        obtain ⟨ss, rfl, -⟩ := h3 _ ht
        obtain ⟨x, hx, j, j', hw⟩ := parseAll_back hp hm
        obtain ⟨s, -, rfl⟩ := List.mem_map.mp hx
        rcases word_read hw with ⟨-, rfl⟩ | ⟨-, rfl⟩ | ⟨-, rfl⟩ | ⟨-, rfl⟩ | ⟨-, rfl⟩ <;> cases hu <;> rfl
    | list ht hi hp =>
      cases hu with
      | refl => exact hself
      | list hu => exact ih4 _ hi hp (fun d hd => hid d (.items hi hd)) hu
    | @struct ps ts _ ht hps hp =>
      cases hu with
      | refl => exact hself
      | field hm hu =>
        obtain ⟨name, prop, w, l, j, j', g1, g2, g3, rfl⟩ := JsonData.parseProps_mem hp hm
        have hin : ∀ {x}, Inside x w → x.attrs.alias = .none :=
          fun hx => ih5 _ _ _ hps g1 g2 (fun d hd => hid d (.property hps g1 hd)) hx
        rcases inside_field (fun hl => oneType_single (h6 _ _ _ hps g1 (fun ha => by have := (asked_iff g3).mp ha; simp_all))
            (kept_refs (h5 _ _ _ hps g1)) g2) hu with rfl | ⟨x, b, hx, rfl, hb⟩ | ⟨w', a, rfl, ha, hw'⟩
        · rfl
        · rw [JsonData.attrs_withAttrs, hb]; exact hin hx
        · rcases ha with ha | ha
          · exact ha
          · rw [hin .refl] at ha; exact ha
    | leaf _ hl =>
      obtain ⟨s, -, hc, hal⟩ := leaf_read hl h1 h2
      rw [← hal] at hself
      rcases hc with ⟨rfl, ⟨_, _, _, rfl⟩ | ⟨_, _, _, rfl⟩⟩ | ⟨rfl, _, _, rfl⟩ | ⟨rfl, _, _, _, rfl⟩ | ⟨rfl, _, rfl⟩ | ⟨rfl, _, rfl⟩ <;>
        cases hu <;> exact hself

theorem own_none {a : Attrs} (h : a.alias = .none) : Recap.Spec.own a = [] := by simp [Recap.Spec.own, h]

theorem property_size {d ps : Dict} {n : String} {s : PyVal} (h : Dict.get? d "properties" = some (.dict ps)) (hm : (n, s) ∈ ps) :
    s.size < (PyVal.dict d).size :=
  Nat.lt_trans (PyVal.size_lt_of_mem_dict hm) (size_get h)

theorem part_size {v w : PyVal} (h : Part v w) : v.size ≤ w.size := by
  induction h with
  | refl => exact Nat.le_refl _
  | items h _ ih => exact Nat.le_of_lt (Nat.lt_of_le_of_lt ih (size_get h))
  | property h hm _ ih => exact Nat.le_of_lt (Nat.lt_of_le_of_lt ih (property_size h hm))
  | alternative h hm _ ih => exact Nat.le_of_lt (Nat.lt_of_le_of_lt ih (Nat.lt_trans (size_list _ hm) (size_get h)))

mutual
theorem none_defined : (t : RType) → (∀ u, Inside u t → u.attrs.alias = .none ∧ ∀ k v a, u ≠ .map k v a) →
    Recap.Spec.definedAliases t = []
  | .proxy .., _ => rfl
  | .list t l v a, h => by
    rw [Recap.Spec.definedAliases, none_defined t (fun u hu => h u (.list hu)), own_none (a := a) (h _ .refl).1]; rfl
  | .map k v a, h => absurd rfl ((h _ .refl).2 k v a)
  | .struct fs a, h => by
    rw [Recap.Spec.definedAliases, none_definedAll fs (fun t ht u hu => h u (.field ht hu)), own_none (a := a) (h _ .refl).1]; rfl
  | .union ts a, h => by
    rw [Recap.Spec.definedAliases, none_definedAll ts (fun t ht u hu => h u (.member ht hu)), own_none (a := a) (h _ .refl).1]; rfl
  | .null a, h => own_none (h _ .refl).1
  | .bool a, h => own_none (h _ .refl).1
  | .int _ _ a, h => own_none (h _ .refl).1
  | .float _ a, h => own_none (h _ .refl).1
  | .string _ _ a, h => own_none (h _ .refl).1
  | .bytes _ _ a, h => own_none (h _ .refl).1
  | .enum _ a, h => own_none (h _ .refl).1
theorem none_definedAll : (ts : List RType) → (∀ t ∈ ts, ∀ u, Inside u t → u.attrs.alias = .none ∧ ∀ k v a, u ≠ .map k v a) →
    Recap.Spec.definedAliasesAll ts = []
  | [], _ => rfl
  | t :: ts, h => by
    rw [Recap.Spec.definedAliasesAll, none_defined t (h t (by simp)), none_definedAll ts (fun t ht => h t (by simp [ht]))]; rfl
end

/-- If only the document itself has an identifier, it is definite what is written. -/
theorem kept_definite {v : PyVal} (hk : Kept v) {i i' : Ids} {t : RType} (h : toRecap env v i = .ok (t, i'))
    (hid : ∀ d, Part (.dict d) v → "$id" ∈ Dict.keys d → v = .dict d)
    (ha : ∀ s, t.attrs.alias = .str s → s ≠ "" ∧ ¬Json.Spec.Builtin (.str s)) : Definite live t := by
  have hp := toRecap_parse h
  have hb : BuiltinOnly live t := kept_builtin hk hp
  have hs : ∃ fs a, t = .struct fs a ∧ ∀ f ∈ fs, ∀ u, Inside u f → u.attrs.alias = .none := by
    have hk' := hk
    cases hk with
    | @mk d h1 h2 h3 h4 h5 h6 =>
      obtain ⟨e, ids1, he, hr⟩ := parse_dict_ok hp
      unfold toRecap at h
      rw [hp] at h
      cases hr with
      | union => cases h
      | list => cases h
      | leaf _ hl =>
        obtain ⟨s, -, hc, -⟩ := leaf_read hl h1 h2
        rcases hc with ⟨rfl, ⟨_, _, _, rfl⟩ | ⟨_, _, _, rfl⟩⟩ | ⟨rfl, _, _, rfl⟩ | ⟨rfl, _, _, _, rfl⟩ | ⟨rfl, _, rfl⟩ | ⟨rfl, _, rfl⟩ <;>
          cases h
      | @struct ps ts _ ht hps hpp =>
        refine ⟨_, _, rfl, fun f hf u hu => ?_⟩
        obtain ⟨name, prop, w, l, j, j', g1, g2, g3, rfl⟩ := JsonData.parseProps_mem hpp hf
        have hin : ∀ {x}, Inside x w → x.attrs.alias = .none := by
          refine fun hx => kept_aliases (h5 _ _ _ hps g1) g2 (fun d' hd hi => ?_) hx
          have e := hid d' (.property hps g1 hd) hi
          have hl := part_size hd
          have : prop.size < (PyVal.dict d).size := property_size hps g1
          rw [← e] at hl
          omega
        rcases inside_field (fun hl => oneType_single (h6 _ _ _ hps g1 (fun ha => by have := (asked_iff g3).mp ha; simp_all))
            (kept_refs (h5 _ _ _ hps g1)) g2) hu with rfl | ⟨x, b, hx, rfl, hb⟩ | ⟨w', a, rfl, ha, hw'⟩
        · rfl
        · rw [JsonData.attrs_withAttrs, hb]; exact hin hx
        · rcases ha with ha | ha
          · exact ha
          · rw [hin .refl] at ha; exact ha
  obtain ⟨fs, a, rfl, hf⟩ := hs
  refine builtin_definite hb ?_ ?_
  · rw [Recap.Spec.definedAliases, none_definedAll fs (fun t ht u hu => ⟨hf t ht u hu, (kept_no_proxy hk hp (.field ht hu)).2⟩)]
    simp only [List.nil_append, Recap.Spec.own]
    split <;> simp
  · intro u s hu _ hs
    cases hu with
    | refl => exact ha s hs
    | field hm hu => rw [hf _ hm _ hu] at hs; cases hs

end Recap.JsonData

namespace Recap.JsonData

open Json
open Json.Spec (nameOf Inside)

variable {env : Url.Env}

theorem null_plain {s : String} {i i' : Ids} {t : RType} (h : Json.parse env (.str s) i = .ok (t, i')) (hn : t.isNull = true) :
    t = .null {} := by
  rcases word_read h with ⟨-, rfl⟩ | ⟨-, rfl⟩ | ⟨-, rfl⟩ | ⟨-, rfl⟩ | ⟨-, rfl⟩ <;> first | rfl | cases hn

/-- Unions have no other null than the plain one, and fields have names. -/
theorem kept_parts {v : PyVal} (hk : Kept v) : ∀ {i i' : Ids} {t : RType}, Json.parse env v i = .ok (t, i') →
    (∀ d ps n s, Part (.dict d) v → Dict.get? d "properties" = some (.dict ps) → (n, s) ∈ ps → n ≠ "") → ∀ {u}, Inside u t →
    (∀ ts a, u = .union ts a → ∀ m ∈ ts, m.isNull = true → m = .null {}) ∧
      ∀ fs a, u = .struct fs a → ∀ f ∈ fs, ∃ n, n ≠ "" ∧ nameOf f = some (.str n) := by
  induction hk with
  | @mk d h1 h2 h3 h4 h5 h6 ih4 ih5 =>
    intro i i' t h hne u hu
    obtain ⟨e, ids1, he, hr⟩ := parse_dict_ok h
    cases hr with
    | @union xs ts _ ht hp =>
      obtain ⟨ss, rfl, -⟩ := h3 _ ht
      have hw : ∀ t ∈ ts, ∃ s i i', Json.parse env (.str s) i = .ok (t, i') := by
        intro t hm
        obtain ⟨x, hx, j, j', hw⟩ := parseAll_back hp hm
        obtain ⟨s, -, rfl⟩ := List.mem_map.mp hx
        exact ⟨s, j, j', hw⟩
      cases hu with
      | refl =>
        refine ⟨fun ts' a e m hm hn => ?_, nofun⟩
        cases e
        obtain ⟨s, j, j', hw⟩ := hw m hm
        exact null_plain hw hn
      | member hm hu =>
        obtain ⟨s, j, j', hw⟩ := hw _ hm
        rcases word_read hw with ⟨-, rfl⟩ | ⟨-, rfl⟩ | ⟨-, rfl⟩ | ⟨-, rfl⟩ | ⟨-, rfl⟩ <;> cases hu <;> exact ⟨nofun, nofun⟩
    | list ht hi hp =>
      cases hu with
      | refl => exact ⟨nofun, nofun⟩
      | list hu => exact ih4 _ hi hp (fun d ps n s hd => hne d ps n s (.items hi hd)) hu
    | @struct ps ts _ ht hps hp =>
      cases hu with
      | refl =>
        refine ⟨nofun, fun fs a e f hf => ?_⟩
        cases e
        obtain ⟨name, prop, w, l, j, j', g1, g2, g3, rfl⟩ := JsonData.parseProps_mem hp hf
        exact ⟨name, hne d ps name prop .refl hps g1, named_name ..⟩
      | field hm hu =>
        obtain ⟨name, prop, w, l, j, j', g1, g2, g3, rfl⟩ := JsonData.parseProps_mem hp hm
        have hin : ∀ {x}, Inside x w → _ := fun {x} hx => ih5 _ _ _ hps g1 g2 (fun d ps n s hd => hne d ps n s (.property hps g1 hd)) (u := x) hx
        have hs : l = false → Single w := fun hl => oneType_single
          (h6 _ _ _ hps g1 (fun ha => by have := (asked_iff g3).mp ha; simp_all)) (kept_refs (h5 _ _ _ hps g1)) g2
        rcases inside_field hs hu with rfl | ⟨x, b, hx, rfl, hb⟩ | ⟨w', a, rfl, ha, hw'⟩
        · exact ⟨nofun, nofun⟩
        · obtain ⟨k1, k2⟩ := hin hx
          cases x with
          | union ts c => exact ⟨fun ts' a e => by simp only [RType.withAttrs, RType.union.injEq] at e; exact e.1 ▸ k1 ts c rfl, nofun⟩
          | struct fs c => exact ⟨nofun, fun ts' a e => by simp only [RType.withAttrs, RType.struct.injEq] at e; exact e.1 ▸ k2 fs c rfl⟩
          | _ => exact ⟨nofun, nofun⟩
        · refine ⟨fun ts' a e m hm hn => ?_, nofun⟩
          cases e
          simp only [List.mem_cons, List.not_mem_nil, or_false] at hm
          rcases hm with rfl | rfl
          · rfl
          · rw [hw'] at hn; cases hn
    | leaf _ hl =>
      obtain ⟨s, -, hc, -⟩ := leaf_read hl h1 h2
      rcases hc with ⟨rfl, ⟨_, _, _, rfl⟩ | ⟨_, _, _, rfl⟩⟩ | ⟨rfl, _, _, rfl⟩ | ⟨rfl, _, _, _, rfl⟩ | ⟨rfl, _, rfl⟩ | ⟨rfl, _, rfl⟩ <;>
        cases hu <;> exact ⟨nofun, nofun⟩

end Recap.JsonData
