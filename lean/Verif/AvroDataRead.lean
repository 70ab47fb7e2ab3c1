import Verif.AvroDataLemmas

/-!
# Reading a schema keeps its data (C128)
-/

set_option autoImplicit false

namespace Recap.AvroData

open Avro.Spec (IntValue Header target Other HasType Around root added)
open Values (Val)
open Recap.Avro

/-! ## Single schemas -/

theorem primitive_type {s : String} (a : Attrs) (h : ∃ x, Primitive s x) :
    ∃ t, Avro.Spec.Primitive a s t := by
  obtain ⟨x, h⟩ := h
  cases h <;> exact ⟨_, by constructor⟩

theorem primitive_keyword {s : String} {x : Val} (h : Primitive s x) : ¬Other s := by
  intro ho
  exact ho.1 (by cases h <;> decide)

theorem primitive_holds {s : String} {x : Val} {a : Attrs} {t : RType} (h : Primitive s x)
    (ht : Avro.Spec.Primitive a s t) (ha : a.logical = .none) (reg : Registry) : HoldsIn reg t x := by
  have ht := (primitive_eq ht).1
  cases h <;> simp [Avro.primitive] at ht <;> subst ht
  · exact .leaf rfl .null
  · exact .leaf rfl .bool
  · exact .leaf rfl (.int ha (by assumption))
  · exact .leaf rfl (.int ha (by assumption))
  · exact .leaf rfl (.float (by assumption))
  · exact .leaf rfl (.float (by assumption))
  · exact .leaf rfl (.bytes ha (.inr ⟨_, rfl, by rw [maxLong]; omega⟩))
  · exact .leaf rfl (.string ha (.inr ⟨_, rfl, by rw [maxLong]; omega⟩))

theorem primitive_direct {s : String} {a : Attrs} {t : RType} (ht : Avro.Spec.Primitive a s t) : Direct t := by
  cases ht <;> intro r b h <;> cases h

theorem datum_name {all : Env} {ns : Option String} {s : String} {x : Val} (h : Datum all ns (.str s) x)
    (hp : ∃ x, Primitive s x) : Primitive s x := by
  obtain ⟨y, hp⟩ := hp
  cases h with
  | primitiveName h => exact h
  | reference ho => exact absurd ho (primitive_keyword hp)

theorem is_eq {d : Dict} {s s' : String} (h : Is d s) (h' : Is d s') : s = s' := by
  simpa using Option.some.inj (h.symm.trans h')

theorem primitive_names {s : String} {x : Val} (h : Primitive s x) :
    s ∉ ["fixed", "enum", "array", "map", "record"] := by
  cases h <;> decide

theorem datum_primitive {all : Env} {ns : Option String} {d : Dict} {s : String} {x : Val}
    (h : Datum all ns (.dict d) x) (ht : HasType d (.str s)) (hp : ∃ x, Primitive s x) : Primitive s x := by
  obtain ⟨y, hp⟩ := hp
  have hn := primitive_names hp
  cases h with
  | primitive h1 _ h2 => rwa [is_eq (s := s) ht.type h1]
  | logical h1 => rw [ht.plain] at h1; cases h1
  | fixed h1 => rw [is_eq (s := s) ht.type h1] at hn; simp at hn
  | enum h1 => rw [is_eq (s := s) ht.type h1] at hn; simp at hn
  | array h1 => rw [is_eq (s := s) ht.type h1] at hn; simp at hn
  | map h1 => rw [is_eq (s := s) ht.type h1] at hn; simp at hn
  | record h1 => rw [is_eq (s := s) ht.type h1] at hn; simp at hn

theorem not_primitive {d : Dict} {s s' : String} {x : Val} (ht : HasType d (.str s)) (h : Is d s')
    (hp : Primitive s' x) (hs : s ∈ ["fixed", "enum", "array", "map", "record"]) : False := by
  cases is_eq (s := s) ht.type h
  exact primitive_names hp hs

theorem datum_fixed {all : Env} {ns : Option String} {d : Dict} {n : Nat} {x : Val}
    (h : Datum all ns (.dict d) x) (ht : HasType d (.str "fixed")) (hn : Dict.get? d "size" = some (.int n)) :
    x = .bytes n := by
  cases h with
  | primitive h1 _ h2 => exact (not_primitive ht h1 h2 (by decide)).elim
  | logical h1 => rw [ht.plain] at h1; cases h1
  | fixed _ _ h => rw [hn] at h; simp at h; congr 1; omega
  | enum h1 => exact absurd (is_eq (s := "fixed") ht.type h1) (by decide)
  | array h1 => exact absurd (is_eq (s := "fixed") ht.type h1) (by decide)
  | map h1 => exact absurd (is_eq (s := "fixed") ht.type h1) (by decide)
  | record h1 => exact absurd (is_eq (s := "fixed") ht.type h1) (by decide)

theorem datum_enum {all : Env} {ns : Option String} {d : Dict} {xs : List PyVal} {x : Val}
    (h : Datum all ns (.dict d) x) (ht : HasType d (.str "enum")) (hn : Dict.get? d "symbols" = some (.list xs)) :
    ∃ s, x = .str s ∧ .str s ∈ xs := by
  cases h with
  | primitive h1 _ h2 => exact (not_primitive ht h1 h2 (by decide)).elim
  | logical h1 => rw [ht.plain] at h1; cases h1
  | enum _ h h' => rw [hn] at h; simp at h; exact ⟨_, rfl, h ▸ h'⟩
  | fixed h1 => exact absurd (is_eq (s := "enum") ht.type h1) (by decide)
  | array h1 => exact absurd (is_eq (s := "enum") ht.type h1) (by decide)
  | map h1 => exact absurd (is_eq (s := "enum") ht.type h1) (by decide)
  | record h1 => exact absurd (is_eq (s := "enum") ht.type h1) (by decide)

theorem datum_array {all : Env} {ns : Option String} {d : Dict} {v : PyVal} {x : Val}
    (h : Datum all ns (.dict d) x) (ht : HasType d (.str "array")) (hn : Dict.get? d "items" = some v) :
    ∃ xs, x = .list xs ∧ ∀ y ∈ xs, Datum all ns v y := by
  cases h with
  | primitive h1 _ h2 => exact (not_primitive ht h1 h2 (by decide)).elim
  | logical h1 => rw [ht.plain] at h1; cases h1
  | array _ h h' => rw [hn] at h; cases h; exact ⟨_, rfl, h'⟩
  | fixed h1 => exact absurd (is_eq (s := "array") ht.type h1) (by decide)
  | enum h1 => exact absurd (is_eq (s := "array") ht.type h1) (by decide)
  | map h1 => exact absurd (is_eq (s := "array") ht.type h1) (by decide)
  | record h1 => exact absurd (is_eq (s := "array") ht.type h1) (by decide)

theorem datum_map {all : Env} {ns : Option String} {d : Dict} {v : PyVal} {x : Val}
    (h : Datum all ns (.dict d) x) (ht : HasType d (.str "map")) (hn : Dict.get? d "values" = some v) :
    ∃ ps : List (Val × Val), x = .map ps ∧ (∀ p ∈ ps, Primitive "string" p.1) ∧ ∀ p ∈ ps, Datum all ns v p.2 := by
  cases h with
  | primitive h1 _ h2 => exact (not_primitive ht h1 h2 (by decide)).elim
  | logical h1 => rw [ht.plain] at h1; cases h1
  | map _ h h' h'' => rw [hn] at h; cases h; exact ⟨_, rfl, h', h''⟩
  | fixed h1 => exact absurd (is_eq (s := "map") ht.type h1) (by decide)
  | enum h1 => exact absurd (is_eq (s := "map") ht.type h1) (by decide)
  | array h1 => exact absurd (is_eq (s := "map") ht.type h1) (by decide)
  | record h1 => exact absurd (is_eq (s := "map") ht.type h1) (by decide)

theorem datum_record {all : Env} {ns q : Option String} {d : Dict} {name : Option (String × String)} {vs ws : List PyVal}
    {x : Val} (h : Datum all ns (.dict d) x) (ht : HasType d (.str "record")) (hh : Header ns d name q)
    (hn : Dict.get? d "fields" = some (.list vs)) (hw : Fields vs ws) :
    ∃ xs, x = .struct xs ∧ ws.length = xs.length ∧
      ∀ (i : Nat) w y, ws[i]? = some w → xs[i]? = some y → Datum all q w y := by
  cases h with
  | primitive h1 _ h2 => exact (not_primitive ht h1 h2 (by decide)).elim
  | logical h1 => rw [ht.plain] at h1; cases h1
  | record _ g1 g2 g3 g4 g5 =>
    rw [hn] at g2
    cases g2
    cases fieldTypes_eq (fieldTypes_of hw) g3
    cases header_ns hh g1
    exact ⟨_, rfl, g4, g5⟩
  | fixed h1 => exact absurd (is_eq (s := "record") ht.type h1) (by decide)
  | enum h1 => exact absurd (is_eq (s := "record") ht.type h1) (by decide)
  | array h1 => exact absurd (is_eq (s := "record") ht.type h1) (by decide)
  | map h1 => exact absurd (is_eq (s := "record") ht.type h1) (by decide)

theorem datum_logical {all : Env} {ns : Option String} {d : Dict} {l : String} {x : Val}
    (h : Datum all ns (.dict d) x) (hl : Dict.get? d "logicalType" = some (.str l)) (ha : Applies d l) :
    Logical d l x := by
  cases h with
  | logical h1 _ h2 => rw [hl] at h1; cases h1; exact h2
  | primitive _ h1 => exact absurd ha (h1 l hl)
  | fixed _ h1 => exact absurd ha (h1 l hl)
  | enum h1 => cases ha <;> simp_all [Is]
  | array h1 => cases ha <;> simp_all [Is]
  | map h1 => cases ha <;> simp_all [Is]
  | record h1 => cases ha <;> simp_all [Is]

theorem parseF_logical {ns : Option String} {d : Dict} {l : String} {m : Nat} {reg reg' : Registry} {t : RType}
    (hl : Dict.get? d "logicalType" = some (.str l)) (ha : Applies d l) (h : parseF m (.dict d) ns reg = .ok (t, reg')) :
    reg' = reg ∧ ∃ e, parseLogical (.str l) d e = .ok t := by
  cases m with
  | zero => simp [parseF] at h
  | succ m =>
    have hl' : Dict.getD d "logicalType" .none = .str l := by rw [Dict.getD, hl]; rfl
    have hne : l ≠ "" := by cases ha <;> decide
    rw [parseF, parseDict] at h
    obtain ⟨⟨q, al, e⟩, -, h⟩ := ok_bind h
    have htr : (PyVal.str l).truthy = true := by simp [PyVal.truthy, hne]
    simp only [hl', htr, if_true] at h
    obtain ⟨t', h1, h⟩ := ok_bind h
    cases h
    exact ⟨rfl, e, h1⟩

theorem intValue_mono {a b : Nat} {i : Int} (h : IntValue a true i) (hab : a ≤ b) : IntValue b true i := by
  simp only [IntValue, if_true] at *
  have h1 : (2 : Int) ^ (a - 1) ≤ 2 ^ (b - 1) := by
    have := Nat.pow_le_pow_right (n := 2) (by decide) (Nat.sub_le_sub_right hab 1)
    exact_mod_cast this
  omega

theorem scale_getD {d : Dict} {p q : Nat} (h : Digits d p q) : Dict.getD d "scale" (.int 0) = .int q := by
  rcases h.scale with h | ⟨h', rfl⟩ <;> simp [Dict.getD, *]

theorem logical_holds {d e : Dict} {l : String} {x : Val} {t : RType} (h : Logical d l x)
    (hb : Is d "bytes" → Dict.get? d "size" = .none) (ht : parseLogical (.str l) d e = .ok t) (reg : Registry) :
    HoldsIn reg t x := by
  cases h with
  | @decimal p q n s m u h1 h2 hu h3 h4 h5 =>
    have h1' : Dict.get? d "type" = some (.str "bytes") := h1
    simp only [parseLogical, if_true, h1', h2.precision, Except.ok.injEq] at ht
    have hs : Dict.getD d "size" (.int maxLong) = .int maxLong := by simp [Dict.getD, hb h1]
    rw [hs, scale_getD h2] at ht
    subst ht
    refine .leaf rfl (.decimal (u := u) (p := p) (q := q) rfl ?_ ?_ hu h3 (intValue_mono h5 ?_))
    · simp [attrsOf]
    · simp [attrsOf, Dict.get?]
    · rw [maxLong]; omega
  | @fixedDecimal n p q s m u h1 h2 h3 hu h4 h5 =>
    have h1' : Dict.get? d "type" = some (.str "fixed") := h1
    simp only [parseLogical, if_true, h1', h3.precision, Except.ok.injEq] at ht
    have hs : Dict.getD d "size" (.int maxLong) = .int n := by simp [Dict.getD, h2]
    rw [hs, scale_getD h3] at ht
    subst ht
    refine .leaf rfl (.decimal (u := u) (p := p) (q := q) rfl ?_ ?_ hu h4 (intValue_mono h5 ?_))
    · simp [attrsOf]
    · simp [attrsOf, Dict.get?]
    · omega
  | uuid h =>
    simp [parseLogical] at ht
    subst ht
    exact .leaf rfl (.uuid rfl (by omega) (.inr ⟨36, rfl, by omega⟩))
  | date h =>
    simp [parseLogical] at ht
    subst ht
    exact .leaf rfl (.date rfl (by simp [attrsOf]) h)
  | timeMillis h =>
    simp [parseLogical] at ht
    subst ht
    exact .leaf rfl (.time (u := "millisecond") rfl (by simp [attrsOf]) rfl h)
  | timeMicros h =>
    simp [parseLogical] at ht
    subst ht
    exact .leaf rfl (.time (u := "microsecond") rfl (by simp [attrsOf]) rfl h)
  | timestampMillis h =>
    simp [parseLogical] at ht
    subst ht
    exact .leaf rfl (.instant (u := "millisecond") rfl (by simp [attrsOf]) rfl h)
  | timestampMicros h =>
    simp [parseLogical] at ht
    subst ht
    exact .leaf rfl (.instant (u := "microsecond") rfl (by simp [attrsOf]) rfl h)

theorem logical_direct {d e : Dict} {l : String} {t : RType} (ht : parseLogical (.str l) d e = .ok t) : Direct t := by
  unfold parseLogical at ht
  intro r a h
  subst h
  repeat' split at ht
  all_goals cases ht

/-! ## Nested schemas -/

theorem ordered_grows {env env' : Env} {ns : Option String} {v : PyVal} (h : Ordered env ns v env') :
    ∃ new, env' = env ++ new := by
  induction h using Ordered.rec (motive_2 := fun env ns vs env' _ => ∃ new, env' = env ++ new) with
  | primitiveName => exact ⟨[], by simp⟩
  | reference => exact ⟨[], by simp⟩
  | primitive => exact ⟨[], by simp⟩
  | logical => exact ⟨[], by simp⟩
  | fixed => exact ⟨_, rfl⟩
  | enum => exact ⟨_, rfl⟩
  | union _ ih => exact ih
  | array _ _ _ _ ih => exact ih
  | map _ _ _ _ ih => exact ih
  | record _ _ _ _ _ ih => obtain ⟨new, rfl⟩ := ih; exact ⟨_, List.append_assoc ..⟩
  | nil => exact ⟨[], by simp⟩
  | cons _ _ ih1 ih2 =>
    obtain ⟨a, rfl⟩ := ih1
    obtain ⟨b, rfl⟩ := ih2
    exact ⟨_, List.append_assoc ..⟩

theorem orderedAll_grows {env env' : Env} {ns : Option String} {vs : List PyVal} (h : OrderedAll env ns vs env') :
    ∃ new, env' = env ++ new := by
  induction vs generalizing env with
  | nil => cases h; exact ⟨[], by simp⟩
  | cons v vs ih =>
    cases h with
    | cons h1 h2 =>
      obtain ⟨a, rfl⟩ := ordered_grows h1
      obtain ⟨b, rfl⟩ := ih h2
      exact ⟨_, List.append_assoc ..⟩

/-- What is read of `w` holds the data of the schema `v`. -/
def Reads (all env : Env) (ns : Option String) (v : PyVal) (env' : Env) (w : PyVal) : Prop :=
  ∀ m reg t reg' rest, parseF m w ns reg = .ok (t, reg') → all = env' ++ rest → Known all env reg →
    Known all env' reg' ∧ (∃ new, reg' = reg ++ new) ∧ ((∃ d, v = .dict d) → Direct t) ∧
    ∀ x more, Datum all ns v x → HoldsIn (reg' ++ more) t x

/-- The same for several schemas. -/
def ReadsAll (all env : Env) (ns : Option String) (vs : List PyVal) (env' : Env) (ws : List PyVal) : Prop :=
  ∀ m reg ts reg' rest, Avro.parseAll (parseF m) ns ws reg = .ok (ts, reg') → all = env' ++ rest → Known all env reg →
    Known all env' reg' ∧ (∃ new, reg' = reg ++ new) ∧ ts.length = vs.length ∧
    ∀ (i : Nat) v t x more, vs[i]? = some v → ts[i]? = some t → Datum all ns v x → HoldsIn (reg' ++ more) t x

/-- The dictionary is a field with this schema. -/
structure IsField (d : Dict) (x : String) (v : PyVal) : Prop where
  name : Dict.get? d "name" = some (.str x)
  simple : '.' ∉ x.toList
  «namespace» : Dict.get? d "namespace" = .none
  type : HasType d v

theorem get?_update_ne (d e : Dict) {k : String} (h : k ∉ Dict.keys e) :
    Dict.get? (Dict.update d e) k = Dict.get? d k := by
  induction e generalizing d with
  | nil => rfl
  | cons kv e ih =>
    obtain ⟨k', v⟩ := kv
    simp only [Dict.keys, List.map_cons, List.mem_cons, not_or] at h
    rw [Dict.update_cons, ih _ h.2]
    exact Dict.get?_set_ne _ _ (Ne.symm h.1)

/-- A primitive type, alone or of a field. -/
theorem reads_primitive {all env : Env} {ns : Option String} {v : PyVal} {d : Dict} {name : Option (String × String)}
    {s : String} (hh : Header ns d name ns) (ht : HasType d (.str s)) (hp : ∃ x, Primitive s x)
    (hx : ∀ x, Datum all ns v x → Primitive s x) : Reads all env ns v env (.dict d) := by
  intro m reg t reg' rest h _ hk
  cases m with
  | zero => simp [parseF] at h
  | succ m =>
    rw [parseF_dict hh ht] at h
    obtain ⟨u, hu⟩ := primitive_type (Avro.Spec.attrs name d) hp
    simp only [parseType, ht.type, attrsOf_attrs, (primitive_eq hu).1] at h
    obtain ⟨rfl, new, rfl⟩ := registered_ok h
    exact ⟨hk.grow _, ⟨_, rfl⟩, fun _ => primitive_direct hu, fun x more hd => primitive_holds (hx x hd) hu rfl _⟩

/-- A field whose schema is a dictionary. -/
theorem reads_nested {all env env' : Env} {ns : Option String} {d fd : Dict} {x : String} (hi : Inner ns)
    (hf : IsField fd x (.dict d)) (h : Reads all env ns (.dict d) env' (.dict d)) :
    Reads all env ns (.dict d) env' (.dict fd) := by
  intro m reg t reg' rest hp hall hk
  cases m with
  | zero => simp [parseF] at hp
  | succ m =>
    obtain ⟨s, hh⟩ := field_header hi hf.name hf.simple hf.namespace
    rw [parseF_dict hh hf.type] at hp
    simp only [parseType, hf.type.type] at hp
    obtain ⟨⟨u, reg1⟩, h1, hp⟩ := ok_bind hp
    cases hp
    obtain ⟨g1, g2, g3, g4⟩ := h m reg u _ rest h1 hall hk
    refine ⟨g1, g2, fun _ => direct_withAttrs (g3 ⟨d, rfl⟩), fun y more hd =>
      holdsIn_withAttrs (g4 y more hd) (g3 ⟨d, rfl⟩) ⟨rfl, fun k hk => ?_⟩⟩
    have key : ∀ k ∈ ["precision", "scale", "unit"], k ∉ Dict.keys (added (some (s, x)) fd) := by
      intro k hk
      unfold added Avro.Spec.extra
      simp only [List.mem_cons, List.not_mem_nil, or_false] at hk
      rcases hk with rfl | rfl | rfl <;> cases Dict.get? fd "doc" <;> cases Dict.get? fd "default" <;>
        simp [Dict.keys]
    exact get?_update_ne _ _ (key k hk)

theorem reads_all {all : Env} {env env' : Env} {ns : Option String} {v : PyVal} (h : Ordered env ns v env') :
    Reads all env ns v env' v ∧ (Inner ns → ∀ fd x, IsField fd x v → Reads all env ns v env' (.dict fd)) := by
  induction h using Ordered.rec (motive_2 := fun env ns vs env' _ => ReadsAll all env ns vs env' vs ∧
    (Inner ns → ∀ fs, Fields fs vs → ReadsAll all env ns vs env' fs)) with
  | @primitiveName env ns s hp =>
    refine ⟨?_, fun hi fd x hf => ?_⟩
    · intro m reg t reg' rest h _ hk
      cases m with
      | zero => simp [parseF] at h
      | succ m =>
        obtain ⟨u, hu⟩ := primitive_type {} hp
        have : parseF (m + 1) (.str s) ns reg = registered u reg := by
          obtain ⟨h1, h2⟩ := primitive_eq hu
          have : attrsOf [] = {} := rfl
          simp [parseF, parseDict, header, namespaceOf, Dict.get?, copied, Dict.getD, PyVal.truthy, parseType,
            bind, Except.bind, pure, Except.pure, this, h1]
        rw [this] at h
        obtain ⟨rfl, new, rfl⟩ := registered_ok h
        exact ⟨hk.grow _, ⟨_, rfl⟩, fun _ => primitive_direct hu,
          fun x more hd => primitive_holds (datum_name hd hp) hu rfl _⟩
    · obtain ⟨s', hh⟩ := field_header hi hf.name hf.simple hf.namespace
      exact reads_primitive hh hf.type hp fun x hd => datum_name hd hp
  | @reference env ns s ho hl =>
    have key : ∀ {reg : Registry} {a : Attrs} {x : Val} (more : Registry), Known all env reg → Datum all ns (.str s) x →
        a.alias = .str (target ns s) → (∀ k ∈ Dict.keys a.extra, k = "name" ∨ k = "default") →
        HoldsIn (reg ++ more) (.proxy .none a) x := by
      intro reg a x more hk hd ha he
      obtain ⟨⟨q, v⟩, hl⟩ := Option.isSome_iff_exists.mp hl
      obtain ⟨h1, u, h2, h3, h4, h5⟩ := hk _ _ _ hl
      cases hd with
      | primitiveName hp => exact absurd ho (primitive_keyword hp)
      | reference _ g1 g2 =>
        rw [h1] at g1
        cases g1
        exact holdsIn_reference ha he (by rw [find?_append, h2]) (h3 _) h4 (h5 x _ g2)
    refine ⟨?_, fun hi fd x hf => ?_⟩
    · intro m reg t reg' rest h _ hk
      cases m with
      | zero => simp [parseF] at h
      | succ m =>
        have : parseF (m + 1) (.str s) ns reg = .ok (.proxy .none { alias := .str (target ns s) }, reg) := by
          simp [parseF, parseDict, header, namespaceOf, Dict.get?, copied, Dict.getD, PyVal.truthy, parseType,
            bind, Except.bind, pure, Except.pure, primitive_other _ ho, parseComplex_other ho, reference, attrsOf,
            ← hasDot_target]
        rw [this] at h
        cases h
        exact ⟨hk, ⟨[], by simp⟩, fun ⟨d, hd⟩ => (by cases hd), fun x more hd =>
          key more hk hd rfl (by simp [Dict.keys])⟩
    · intro m reg t reg' rest h _ hk
      cases m with
      | zero => simp [parseF] at h
      | succ m =>
        obtain ⟨s', hh⟩ := field_header hi hf.name hf.simple hf.namespace
        rw [parseF_dict hh hf.type] at h
        simp only [parseType, hf.type.type, primitive_other _ ho, parseComplex_other ho, reference, attrsOf_added,
          hasDot_target] at h
        cases h
        exact ⟨hk, ⟨[], by simp⟩, fun ⟨d, hd⟩ => (by cases hd), fun y more hd =>
          key more hk hd rfl (extra_keys' (some (s', x)) fd)⟩
  | @union env ns vs env' _ ih =>
    refine ⟨?_, fun hi fd x hf => ?_⟩
    · intro m reg t reg' rest h
      cases m with
      | zero => simp [parseF] at h
      | succ m => rw [parseF] at h; split at h <;> cases h
    · intro m reg t reg' rest h hall hk
      cases m with
      | zero => simp [parseF] at h
      | succ m =>
        obtain ⟨s', hh⟩ := field_header hi hf.name hf.simple hf.namespace
        rw [parseF_dict hh hf.type] at h
        simp only [parseType, hf.type.type] at h
        obtain ⟨⟨ts, reg1⟩, h1, h⟩ := ok_bind h
        obtain ⟨g1, ⟨new, rfl⟩, g3, g4⟩ := ih.1 m reg ts reg1 rest h1 hall hk
        obtain ⟨rfl, new', rfl⟩ := registered_ok h
        refine ⟨g1.grow _, ⟨_, List.append_assoc ..⟩, fun ⟨d, hd⟩ => (by cases hd), fun y more hd => ?_⟩
        cases hd with
        | union hv hd =>
          obtain ⟨i, hi, rfl⟩ := List.getElem_of_mem hv
          have hi' : i < ts.length := by omega
          rw [List.append_assoc]
          exact .union (List.getElem_mem hi') (g4 i _ _ y _ (List.getElem?_eq_getElem hi) (List.getElem?_eq_getElem hi') hd)
  | @primitive env ns d s ha ht hp =>
    have key : Reads all env ns (.dict d) env (.dict d) :=
      reads_primitive (anonymous_header ha) ht hp fun x hd => datum_primitive hd ht hp
    exact ⟨key, fun hi fd x hf => reads_nested hi hf key⟩
  | @logical env ns d l hl ha hb =>
    have key : Reads all env ns (.dict d) env (.dict d) := by
      intro m reg t reg' rest h _ hk
      obtain ⟨rfl, e, h⟩ := parseF_logical hl ha h
      exact ⟨hk, ⟨[], by simp⟩, fun _ => logical_direct h, fun x more hd =>
        logical_holds (datum_logical hd hl ha) hb h _⟩
    exact ⟨key, fun hi fd x hf => reads_nested hi hf key⟩
  | @fixed env ns d s x q n hh ht hn hm =>
    have key : Reads all env ns (.dict d) (env ++ [(s, ns, .dict d)]) (.dict d) := by
      intro m reg t reg' rest h hall hk
      cases m with
      | zero => simp [parseF] at h
      | succ m =>
        rw [parseF_dict hh ht] at h
        have h1 : ∀ a, Avro.primitive "fixed" a = .none := fun a => primitive_none a (by decide)
        simp only [parseType, ht.type, h1, parseComplex, if_true, hn, asInt] at h
        rw [if_pos (by rw [maxLong]; omega), attrsOf_attrs] at h
        obtain ⟨rfl, h2, rfl⟩ := registered_named (x := x) rfl h
        have hx : ∀ (r : Registry) y, Datum all ns (.dict d) y →
            HoldsIn r (.bytes (.int n) (.bool true) (Avro.Spec.attrs (some (s, x)) d)) y := by
          intro r y hd
          rw [datum_fixed hd ht hn]
          exact .leaf rfl (.bytes rfl (.inr ⟨_, rfl, by omega⟩))
        have hdir : Direct (.bytes (.int n) (.bool true) (Avro.Spec.attrs (some (s, x)) d)) := by intro r a h; cases h
        exact ⟨hk.define hall h2 hdir (hx _), ⟨_, rfl⟩, fun _ => hdir, fun y more => hx _ y⟩
    exact ⟨key, fun hi fd x hf => reads_nested hi hf key⟩
  | @enum env ns d s x q xs hh ht hn =>
    have key : Reads all env ns (.dict d) (env ++ [(s, ns, .dict d)]) (.dict d) := by
      intro m reg t reg' rest h hall hk
      cases m with
      | zero => simp [parseF] at h
      | succ m =>
        rw [parseF_dict hh ht] at h
        have h1 : ∀ a, Avro.primitive "enum" a = .none := fun a => primitive_none a (by decide)
        simp only [parseType, ht.type, h1, parseComplex, String.reduceEq, if_false, if_true, hn, attrsOf_attrs] at h
        obtain ⟨rfl, h2, rfl⟩ := registered_named (x := x) rfl h
        have hx : ∀ (r : Registry) y, Datum all ns (.dict d) y →
            HoldsIn r (.enum (.list xs) (Avro.Spec.attrs (some (s, x)) d)) y := by
          intro r y hd
          obtain ⟨z, rfl, hz⟩ := datum_enum hd ht hn
          exact .leaf rfl (.enum hz)
        have hdir : Direct (.enum (.list xs) (Avro.Spec.attrs (some (s, x)) d)) := by intro r a h; cases h
        exact ⟨hk.define hall h2 hdir (hx _), ⟨_, rfl⟩, fun _ => hdir, fun y more => hx _ y⟩
    exact ⟨key, fun hi fd x hf => reads_nested hi hf key⟩
  | @array env ns d v env' ha ht hn _ ih =>
    have key : Reads all env ns (.dict d) env' (.dict d) := by
      intro m reg t reg' rest h hall hk
      cases m with
      | zero => simp [parseF] at h
      | succ m =>
        rw [parseF_dict (anonymous_header ha) ht] at h
        have h1 : ∀ a, Avro.primitive "array" a = .none := fun a => primitive_none a (by decide)
        simp only [parseType, ht.type, h1, parseComplex, String.reduceEq, if_false, if_true, hn] at h
        obtain ⟨⟨u, reg1⟩, h2, h⟩ := ok_bind h
        obtain ⟨g1, ⟨new, rfl⟩, g3, g4⟩ := ih.1 m reg u reg1 rest h2 hall hk
        obtain ⟨rfl, new', rfl⟩ := registered_ok h
        refine ⟨g1.grow _, ⟨_, List.append_assoc ..⟩, fun _ r a h => (by cases h), fun y more hd => ?_⟩
        obtain ⟨xs, rfl, hxs⟩ := datum_array hd ht hn
        rw [List.append_assoc]
        exact .list fun z hz => g4 z _ (hxs z hz)
    exact ⟨key, fun hi fd x hf => reads_nested hi hf key⟩
  | @map env ns d v env' ha ht hn _ ih =>
    have key : Reads all env ns (.dict d) env' (.dict d) := by
      intro m reg t reg' rest h hall hk
      cases m with
      | zero => simp [parseF] at h
      | succ m =>
        rw [parseF_dict (anonymous_header ha) ht] at h
        have h1 : ∀ a, Avro.primitive "map" a = .none := fun a => primitive_none a (by decide)
        simp only [parseType, ht.type, h1, parseComplex, String.reduceEq, if_false, if_true, hn] at h
        obtain ⟨⟨u, reg1⟩, h2, h⟩ := ok_bind h
        obtain ⟨g1, ⟨new, rfl⟩, g3, g4⟩ := ih.1 m reg u reg1 rest h2 hall hk
        obtain ⟨rfl, new', rfl⟩ := registered_ok h
        refine ⟨g1.grow _, ⟨_, List.append_assoc ..⟩, fun _ r a h => (by cases h), fun y more hd => ?_⟩
        obtain ⟨ps, rfl, hk1, hv1⟩ := datum_map hd ht hn
        rw [List.append_assoc]
        exact .map (fun p hp => primitive_holds (hk1 p hp) .string rfl _) fun p hp => g4 _ _ (hv1 p hp)
    exact ⟨key, fun hi fd x hf => reads_nested hi hf key⟩
  | @record env ns d s x q vs ws env' hh ht hn hf _ ih =>
    have key : Reads all env ns (.dict d) (env' ++ [(s, ns, .dict d)]) (.dict d) := by
      intro m reg t reg' rest h hall hk
      cases m with
      | zero => simp [parseF] at h
      | succ m =>
        rw [parseF_dict hh ht] at h
        have h1 : ∀ a, Avro.primitive "record" a = .none := fun a => primitive_none a (by decide)
        simp only [parseType, ht.type, h1, parseComplex, String.reduceEq, if_false, if_true, hn, PyVal.iter, attrsOf_attrs] at h
        obtain ⟨_, hv, h⟩ := ok_bind h
        cases hv
        obtain ⟨⟨ts, reg1⟩, h2, h⟩ := ok_bind h
        obtain ⟨g1, ⟨new, rfl⟩, g3, g4⟩ := ih.2 (header_inner hh) vs hf m reg ts reg1 ([(s, ns, .dict d)] ++ rest) h2
          (by rw [hall, List.append_assoc]) hk
        obtain ⟨rfl, h3, rfl⟩ := registered_named (x := x) rfl h
        have hx : ∀ y more, Datum all ns (.dict d) y →
            HoldsIn (reg ++ new ++ more) (.struct ts (Avro.Spec.attrs (some (s, x)) d)) y := by
          intro y more hd
          obtain ⟨xs, rfl, hl, hxs⟩ := datum_record hd ht hh hn hf
          refine .struct (by omega) fun i f z hf hz => ?_
          have hi : i < ws.length := by
            have := (List.getElem?_eq_some_iff.mp hz).1
            omega
          exact g4 i ws[i] f z more (List.getElem?_eq_getElem hi) hf (hxs i _ z (List.getElem?_eq_getElem hi) hz)
        have hdir : Direct (.struct ts (Avro.Spec.attrs (some (s, x)) d)) := by intro r a h; cases h
        refine ⟨g1.define hall h3 hdir fun y hd => ?_, ⟨_, List.append_assoc ..⟩, fun _ => hdir, fun y more hd => ?_⟩
        · have := hx y [] hd
          rwa [List.append_nil] at this
        · rw [List.append_assoc]
          exact hx y _ hd
    exact ⟨key, fun hi fd x hf => reads_nested hi hf key⟩
  | nil =>
    refine ⟨?_, fun hi fs hf => ?_⟩
    · intro m reg ts reg' rest h _ hk
      simp only [Avro.parseAll] at h
      cases h
      exact ⟨hk, ⟨[], by simp⟩, rfl, by simp⟩
    · cases hf
      intro m reg ts reg' rest h _ hk
      simp only [Avro.parseAll] at h
      cases h
      exact ⟨hk, ⟨[], by simp⟩, rfl, by simp⟩
  | @cons env ns v vs env' env'' h1 h2 ih1 ih2 =>
    have key : ∀ w ws, Reads all env ns v env' w → ReadsAll all env' ns vs env'' ws →
        ReadsAll all env ns (v :: vs) env'' (w :: ws) := by
      intro w ws g1 g2 m reg ts reg' rest h hall hk
      simp only [Avro.parseAll] at h
      obtain ⟨⟨t, reg1⟩, e1, h⟩ := ok_bind h
      obtain ⟨⟨ts', reg2⟩, e2, h⟩ := ok_bind h
      cases h
      obtain ⟨new, hnew⟩ := orderedAll_grows h2
      obtain ⟨k1, ⟨n1, rfl⟩, -, k4⟩ := g1 m reg t reg1 (new ++ rest) e1 (by rw [hall, hnew, List.append_assoc]) hk
      obtain ⟨l1, ⟨n2, rfl⟩, l3, l4⟩ := g2 m _ ts' _ rest e2 hall k1
      refine ⟨l1, ⟨_, List.append_assoc ..⟩, by simp [l3], fun i v' t' x more hv ht hx => ?_⟩
      cases i with
      | zero =>
        simp at hv ht
        subst hv ht
        rw [List.append_assoc]
        exact k4 x _ hx
      | succ i => exact l4 i v' t' x more (by simpa using hv) (by simpa using ht) hx
    refine ⟨key _ _ ih1.1 ih2.1, fun hi fs hf => ?_⟩
    cases hf with
    | cons f1 f2 f3 f4 f5 => exact key _ _ (ih1.2 hi _ _ ⟨f1, f2, f3, f4⟩) (ih2.2 hi _ f5)

end Recap.AvroData
