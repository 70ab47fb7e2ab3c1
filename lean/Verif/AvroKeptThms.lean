import Verif.AvroKeptSpec
import Verif.AvroOnlyThms
import Verif.AvroStoredThms

/-!
# Reading and writing Avro schemas (C154)
-/

set_option autoImplicit false

namespace Recap.AvroData

open Avro.Spec (IntValue Header target Other HasType Around root added)
open Values (Val Holds)
open AvroWrite (AsSchema AsField Whole Kept KeptField Plain Annotated Named Places)
open Recap.Avro

/-! ## The types that are read -/

/-- Something is written for the type. -/
def Says (t : RType) : Prop := ∀ live k n, weight k t ≤ n → ∃ v, convertF live n t = .ok v

/-- The alias of a type is absent or a string. -/
def Aliased (a : Attrs) : Prop := a.alias = .none ∨ ∃ s, a.alias = .str s

theorem says_leaf {t : RType} (hl : t.attrs.logical = .none) (ha : Aliased t.attrs) (hw : ∃ d, leafSchema t = .ok d) : Says t := by
  intro live k n hn
  obtain ⟨s, hs⟩ := describe_ok ha
  obtain ⟨d, hd⟩ := hw
  cases n with
  | zero => cases t <;> simp [weight] at hn; simp [leafSchema] at hd
  | succ n =>
    unfold convertF
    rw [hs, hl]
    simp only [bind, Except.bind]
    cases t <;> first | exact ⟨Avro.shorten (Dict.update s d), by dsimp only; rw [hd]; rfl⟩ | simp [leafSchema] at hd

theorem says_logical {t : RType} {l : String} (hl : t.attrs.logical = .str l) (ha : Aliased t.attrs)
    (hw : ∃ d, logicalSchema t = .ok d) : Says t := by
  intro live k n hn
  obtain ⟨s, hs⟩ := describe_ok ha
  obtain ⟨d, hd⟩ := hw
  cases n with
  | zero => cases t <;> simp [weight] at hn; simp [logicalSchema] at hd
  | succ n =>
    unfold convertF
    rw [hs, hl, hd]
    exact ⟨_, rfl⟩

theorem weightAll_mem {k : Nat} {t : RType} {ts : List RType} (h : t ∈ ts) : weight k t ≤ weightAll k ts := by
  induction ts with
  | nil => cases h
  | cons u us ih =>
    rcases List.mem_cons.mp h with rfl | h
    · simp [weightAll]
    · have := ih h
      simp only [weightAll]
      omega

theorem says_all {live : Registry} {k n : Nat} {ts : List RType} (h : ∀ t ∈ ts, Says t) (hn : weightAll k ts ≤ n) :
    ∃ vs, convertAll (convertF live n) ts = .ok vs := by
  induction ts with
  | nil => exact ⟨[], rfl⟩
  | cons t ts ih =>
    simp only [weightAll] at hn
    obtain ⟨v, hv⟩ := h t (by simp) live k n (by omega)
    obtain ⟨vs, hvs⟩ := ih (fun u hu => h u (by simp [hu])) (by omega)
    exact ⟨v :: vs, by simp [convertAll, hv, hvs, bind, Except.bind, pure, Except.pure]⟩

theorem says_list {t : RType} {v : PyVal} {a : Attrs} (hl : a.logical = .none) (ha : Aliased a) (h : Says t) :
    Says (.list t .none v a) := by
  intro live k n hn
  obtain ⟨s, hs⟩ := describe_ok ha
  cases n with
  | zero => simp [weight] at hn
  | succ n =>
    obtain ⟨w, hw⟩ := h live k n (by simp only [weight] at hn; omega)
    exact ⟨_, by simp [convertF, RType.attrs, hs, hl, bind, Except.bind, hw, pure, Except.pure]; rfl⟩

theorem says_map {t : RType} {a : Attrs} (hl : a.logical = .none) (ha : Aliased a) (h : Says t) :
    Says (.map stringKeys t a) := by
  intro live k n hn
  obtain ⟨s, hs⟩ := describe_ok ha
  cases n with
  | zero => simp [weight] at hn
  | succ n =>
    obtain ⟨w, hw⟩ := h live k n (by simp only [weight] at hn; omega)
    exact ⟨_, by simp [convertF, RType.attrs, hs, hl, bind, Except.bind, hw, pure, Except.pure, isString, stringKeys]; rfl⟩

theorem says_struct {ts : List RType} {a : Attrs} (hl : a.logical = .none) (ha : Aliased a) (h : ∀ t ∈ ts, Says t) :
    Says (.struct ts a) := by
  intro live k n hn
  obtain ⟨s, hs⟩ := describe_ok ha
  cases n with
  | zero => simp [weight] at hn
  | succ n =>
    obtain ⟨w, hw⟩ := says_all (live := live) (n := n) (k := k) h (by simp only [weight] at hn; omega)
    exact ⟨_, by simp [convertF, RType.attrs, hs, hl, bind, Except.bind, hw, pure, Except.pure]; rfl⟩

theorem says_union {ts : List RType} {a : Attrs} (hl : a.logical = .none) (ha : Aliased a) (h : ∀ t ∈ ts, Says t) :
    Says (.union ts a) := by
  intro live k n hn
  obtain ⟨s, hs⟩ := describe_ok ha
  cases n with
  | zero => simp [weight] at hn
  | succ n =>
    obtain ⟨w, hw⟩ := says_all (live := live) (n := n) (k := k) h (by simp only [weight] at hn; omega)
    exact ⟨_, by simp [convertF, RType.attrs, hs, hl, bind, Except.bind, hw, pure, Except.pure]; rfl⟩

theorem attrs_aliased (name : Option (String × String)) (d : Dict) : Aliased (Avro.Spec.attrs name d) := by
  cases name with
  | none => exact .inl rfl
  | some p => exact .inr ⟨p.1, rfl⟩

/-- C129 and C137 hold of the type, and it can be written. -/
structure Good (t : RType) : Prop where
  schema : AsSchema t
  whole : Whole t
  kept : Kept t
  says : Says t

/-- The same for the type of a field. -/
structure GoodField (t : RType) : Prop where
  field : AsField t
  whole : Whole t
  kept : KeptField t
  says : Says t

theorem whole_leaf {t : RType} (h : Recap.Spec.children t = []) (hd : Direct t) : Whole t :=
  .mk hd (by simp [h])

theorem primitive_plain {s : String} {a : Attrs} {t : RType} (h : Avro.Spec.Primitive a s t) (ha : a.logical = .none)
    (hal : Aliased a) : Plain t ∧ Whole t ∧ Kept t ∧ Says t := by
  have he := (primitive_eq h).2
  refine ⟨?_, whole_leaf (by cases h <;> rfl) (primitive_direct h), ?_, says_leaf (by rw [he, ha]) (by rw [he]; exact hal)
    (by cases h <;> exact ⟨_, rfl⟩)⟩
  · cases h <;> constructor <;> first | exact ha | decide
  · cases h <;> first | exact .null | exact .bool | exact .int ha | exact .long ha | exact .float | exact .double |
      exact .bytes ha | exact .string ha

theorem primitive_good {s : String} {a : Attrs} {t : RType} (h : Avro.Spec.Primitive a s t) (ha : a.logical = .none)
    (hal : Aliased a) : Good t :=
  let ⟨h1, h2, h3, h4⟩ := primitive_plain h ha hal
  ⟨.plain h1, h2, h3, h4⟩

theorem primitive_goodField {s : String} {a : Attrs} {t : RType} (h : Avro.Spec.Primitive a s t) (ha : a.logical = .none)
    (hal : Aliased a) : GoodField t :=
  let ⟨h1, h2, h3, h4⟩ := primitive_plain h ha hal
  ⟨.plain h1, h2, .simple (by rw [(primitive_eq h).2, ha]) (by cases h <;> simp) h3, h4⟩

theorem primitive_withAttrs {s : String} {a b : Attrs} {t : RType} (h : Avro.Spec.Primitive a s t) :
    Avro.Spec.Primitive b s (t.withAttrs b) := by
  cases h <;> constructor

theorem logical_good {d e : Dict} {l : String} {t : RType} (ha : Applies d l) (hf : ¬Is d "fixed")
    (hb : Is d "bytes" → Dict.get? d "size" = .none) (ht : parseLogical (.str l) d e = .ok t) : Good t := by
  cases ha with
  | @decimal p q h1 h2 =>
    have h1' : Dict.get? d "type" = some (.str "bytes") := h1
    simp only [parseLogical, if_true, h1', h2.precision, Except.ok.injEq] at ht
    have hs : Dict.getD d "size" (.int maxLong) = .int maxLong := by simp [Dict.getD, hb h1]
    rw [hs, scale_getD h2] at ht
    subst ht
    have g1 : ∀ e : Dict, Dict.get? (attrsOf e (logical := .str "build.recap.Decimal")
      (own := [("precision", .int p), ("scale", .int q)])).extra "precision" = some (.int p) := by simp [attrsOf]
    have g2 : ∀ e : Dict, Dict.get? (attrsOf e (logical := .str "build.recap.Decimal")
      (own := [("precision", .int p), ("scale", .int q)])).extra "scale" = some (.int q) := by simp [attrsOf, Dict.get?]
    exact ⟨.annotated (.decimal rfl (g1 e) (g2 e) h2.positive h2.within), whole_leaf rfl (by simp [Direct]),
      .decimal (p := p) (q := q) rfl ⟨g1 e, by simp [Dict.getD, g2], h2.positive, h2.within⟩ (g2 e),
      says_logical rfl (.inl rfl) ⟨_, by simp [logicalSchema, asInt, maxLong, attrsOf]; rfl⟩⟩
  | fixedDecimal h1 => exact absurd h1 hf
  | duration h1 => exact absurd h1 hf
  | uuid h =>
    simp [parseLogical] at ht
    subst ht
    exact ⟨.annotated (.uuid rfl), whole_leaf rfl (by simp [Direct]), .uuid rfl (by decide),
      says_logical rfl (.inl rfl) ⟨_, by simp [logicalSchema, asInt, maxLong, attrsOf]; rfl⟩⟩
  | date h =>
    simp [parseLogical] at ht
    subst ht
    exact ⟨.annotated (.date rfl), whole_leaf rfl (by simp [Direct]), .date rfl (by simp [attrsOf]),
      says_logical rfl (.inl rfl) ⟨_, by simp [logicalSchema, asInt, attrsOf]; rfl⟩⟩
  | timeMillis h =>
    simp [parseLogical] at ht
    subst ht
    exact ⟨.annotated (.time rfl), whole_leaf rfl (by simp [Direct]), .timeMillis rfl (by simp [attrsOf]),
      says_logical rfl (.inl rfl) ⟨_, by simp [logicalSchema, asInt, attrsOf]; rfl⟩⟩
  | timeMicros h =>
    simp [parseLogical] at ht
    subst ht
    exact ⟨.annotated (.time rfl), whole_leaf rfl (by simp [Direct]), .timeMicros rfl (by simp [attrsOf]),
      says_logical rfl (.inl rfl) ⟨_, by simp [logicalSchema, asInt, attrsOf]; rfl⟩⟩
  | timestampMillis h =>
    simp [parseLogical] at ht
    subst ht
    exact ⟨.annotated (.timestamp rfl), whole_leaf rfl (by simp [Direct]), .timestamp rfl,
      says_logical rfl (.inl rfl) ⟨_, by simp [logicalSchema, asInt, attrsOf]; rfl⟩⟩
  | timestampMicros h =>
    simp [parseLogical] at ht
    subst ht
    exact ⟨.annotated (.timestamp rfl), whole_leaf rfl (by simp [Direct]), .timestamp rfl,
      says_logical rfl (.inl rfl) ⟨_, by simp [logicalSchema, asInt, attrsOf]; rfl⟩⟩

theorem header_named {ns q : Option String} {d : Dict} {s x : String} (h : Header ns d (some (s, x)) q) :
    Named (Avro.Spec.attrs (some (s, x)) d) := by
  have : '.' ∉ x.toList := by cases h <;> assumption
  exact .inr (.inl ⟨x, by simp [Avro.Spec.attrs, Avro.Spec.extra], this⟩)

theorem parseAll_good {ns : Option String} {m : Nat} {vs : List PyVal} {P : RType → Prop}
    (h : ∀ v ∈ vs, ∀ reg t reg', parseF m v ns reg = .ok (t, reg') → P t) {reg reg' : Registry} {ts : List RType}
    (hp : Avro.parseAll (parseF m) ns vs reg = .ok (ts, reg')) : ∀ t ∈ ts, P t := by
  induction vs generalizing reg ts with
  | nil => simp only [Avro.parseAll] at hp; cases hp; simp
  | cons v vs ih =>
    simp only [Avro.parseAll] at hp
    obtain ⟨⟨t, reg1⟩, e1, hp⟩ := ok_bind hp
    obtain ⟨⟨ts', reg2⟩, e2, hp⟩ := ok_bind hp
    cases hp
    intro u hu
    rcases List.mem_cons.mp hu with rfl | hu
    · exact h v (by simp) _ _ _ e1
    · exact ih (fun w hw => h w (by simp [hw])) e2 u hu

theorem fields_mem {vs ws : List PyVal} (h : Fields vs ws) : ∀ v ∈ vs, ∃ d x w, v = .dict d ∧ w ∈ ws ∧ IsField d x w := by
  induction h with
  | nil => simp
  | cons h1 h2 h3 h4 _ ih =>
    intro v hv
    rcases List.mem_cons.mp hv with rfl | hv
    · exact ⟨_, _, _, rfl, by simp, ⟨h1, h2, h3, h4⟩⟩
    · obtain ⟨d, x, w, rfl, hw, hf⟩ := ih v hv
      exact ⟨d, x, w, rfl, by simp [hw], hf⟩

theorem steady_good {ns : Option String} {v : PyVal} (h : Steady ns v) :
    ∀ m reg t reg', parseF m v ns reg = .ok (t, reg') → Good t := by
  induction h using Steady.rec (motive_2 := fun ns v _ => Inner ns → ∀ fd x, IsField fd x v → ∀ m reg t reg',
    parseF m (.dict fd) ns reg = .ok (t, reg') → GoodField t) with
  | @name ns s hp =>
    intro m reg t reg' h
    cases m with
    | zero => simp [parseF] at h
    | succ m =>
      obtain ⟨u, hu⟩ := primitive_type {} hp
      have : parseF (m + 1) (.str s) ns reg = registered u reg := by
        obtain ⟨h1, h2⟩ := primitive_eq hu
        have : attrsOf [] = {} := rfl
        simp [parseF, parseDict, header, namespaceOf, Dict.get?, copied, Dict.getD, PyVal.truthy, parseType,
          bind, Except.bind, pure, Except.pure, this, h1]
      rw [this] at h
      obtain ⟨rfl, -⟩ := registered_ok h
      exact primitive_good hu rfl (.inl rfl)
  | @primitive ns d s ha ht hp =>
    intro m reg t reg' h
    cases m with
    | zero => simp [parseF] at h
    | succ m =>
      rw [parseF_dict (anonymous_header ha) ht] at h
      obtain ⟨u, hu⟩ := primitive_type (Avro.Spec.attrs .none d) hp
      simp only [parseType, ht.type, attrsOf_attrs, (primitive_eq hu).1] at h
      obtain ⟨rfl, -⟩ := registered_ok h
      exact primitive_good hu rfl (attrs_aliased _ _)
  | @logical ns d l hl ha hf hb =>
    intro m reg t reg' h
    obtain ⟨-, e, h⟩ := parseF_logical hl ha h
    exact logical_good ha hf hb h
  | @enum ns d s x q xs hh ht hn =>
    intro m reg t reg' h
    cases m with
    | zero => simp [parseF] at h
    | succ m =>
      rw [parseF_dict hh ht] at h
      have h1 : ∀ a, Avro.primitive "enum" a = .none := fun a => primitive_none a (by decide)
      simp only [parseType, ht.type, h1, parseComplex, String.reduceEq, if_false, if_true, hn, attrsOf_attrs] at h
      obtain ⟨rfl, -⟩ := registered_ok h
      exact ⟨.enum rfl, whole_leaf rfl (by simp [Direct]), .enum, says_leaf rfl (attrs_aliased _ _) ⟨_, rfl⟩⟩
  | @array ns d v ha ht hn _ ih =>
    intro m reg t reg' h
    cases m with
    | zero => simp [parseF] at h
    | succ m =>
      rw [parseF_dict (anonymous_header ha) ht] at h
      have h1 : ∀ a, Avro.primitive "array" a = .none := fun a => primitive_none a (by decide)
      simp only [parseType, ht.type, h1, parseComplex, String.reduceEq, if_false, if_true, hn] at h
      obtain ⟨⟨u, reg1⟩, h2, h⟩ := ok_bind h
      obtain ⟨rfl, -⟩ := registered_ok h
      have g := ih m reg u reg1 h2
      exact ⟨.list rfl g.schema, .mk (by simp) (by simpa [Recap.Spec.children] using g.whole), .list g.kept,
        says_list rfl (attrs_aliased .none d) g.says⟩
  | @map ns d v ha ht hn _ ih =>
    intro m reg t reg' h
    cases m with
    | zero => simp [parseF] at h
    | succ m =>
      rw [parseF_dict (anonymous_header ha) ht] at h
      have h1 : ∀ a, Avro.primitive "map" a = .none := fun a => primitive_none a (by decide)
      simp only [parseType, ht.type, h1, parseComplex, String.reduceEq, if_false, if_true, hn] at h
      obtain ⟨⟨u, reg1⟩, h2, h⟩ := ok_bind h
      obtain ⟨rfl, -⟩ := registered_ok h
      have g := ih m reg u reg1 h2
      have hk : Whole stringKeys := whole_leaf rfl (by simp [Direct, stringKeys])
      exact ⟨.map rfl (by simp [maxLong]) g.schema, .mk (by simp) (by simp [Recap.Spec.children, hk, g.whole]),
        .map rfl g.kept, says_map rfl (attrs_aliased .none d) g.says⟩
  | @record ns d s x q vs ws hh ht hn hf _ ih =>
    intro m reg t reg' h
    cases m with
    | zero => simp [parseF] at h
    | succ m =>
      rw [parseF_dict hh ht] at h
      have h1 : ∀ a, Avro.primitive "record" a = .none := fun a => primitive_none a (by decide)
      simp only [parseType, ht.type, h1, parseComplex, String.reduceEq, if_false, if_true, hn, PyVal.iter, attrsOf_attrs] at h
      obtain ⟨_, hv, h⟩ := ok_bind h
      cases hv
      obtain ⟨⟨ts, reg1⟩, h2, h⟩ := ok_bind h
      have g : ∀ t ∈ ts, GoodField t := parseAll_good (fun v hv reg t reg' hp => by
        obtain ⟨fd, y, w, rfl, hw, hfd⟩ := fields_mem hf v hv
        exact ih w hw (header_inner hh) fd y hfd _ _ _ _ hp) h2
      obtain ⟨rfl, -⟩ := registered_ok h
      exact ⟨.struct rfl (header_named hh) fun f hf => (g f hf).field,
        .mk (by simp) (by simpa [Recap.Spec.children] using fun f hf => (g f hf).whole),
        .struct fun f hf => (g f hf).kept, says_struct rfl (attrs_aliased _ _) fun f hf => (g f hf).says⟩
  | @fieldName ns s hp hi fd x hf m reg t reg' h =>
    cases m with
    | zero => simp [parseF] at h
    | succ m =>
      obtain ⟨s', hh⟩ := field_header hi hf.name hf.simple hf.namespace
      rw [parseF_dict hh hf.type] at h
      obtain ⟨u, hu⟩ := primitive_type (Avro.Spec.attrs (some (s', x)) fd) hp
      simp only [parseType, hf.type.type, attrsOf_attrs, (primitive_eq hu).1] at h
      obtain ⟨rfl, -⟩ := registered_ok h
      exact primitive_goodField hu rfl (attrs_aliased _ _)
  | @fieldPrimitive ns d s ha ht hp hi fd x hf m reg t reg' h =>
    cases m with
    | zero => simp [parseF] at h
    | succ m =>
      obtain ⟨s', hh⟩ := field_header hi hf.name hf.simple hf.namespace
      rw [parseF_dict hh hf.type] at h
      simp only [parseType, hf.type.type] at h
      obtain ⟨⟨u, reg1⟩, h2, h⟩ := ok_bind h
      cases h
      cases m with
      | zero => simp [parseF] at h2
      | succ m =>
        rw [parseF_dict (anonymous_header ha) ht] at h2
        obtain ⟨u', hu⟩ := primitive_type (Avro.Spec.attrs .none d) hp
        simp only [parseType, ht.type, attrsOf_attrs, (primitive_eq hu).1] at h2
        obtain ⟨rfl, -⟩ := registered_ok h2
        exact primitive_goodField (primitive_withAttrs hu) (by rw [(primitive_eq hu).2]; rfl) (by rw [(primitive_eq hu).2]; exact .inl rfl)
  | @union ns vs _ ih hi fd x hf m reg t reg' h =>
    cases m with
    | zero => simp [parseF] at h
    | succ m =>
      obtain ⟨s', hh⟩ := field_header hi hf.name hf.simple hf.namespace
      rw [parseF_dict hh hf.type] at h
      simp only [parseType, hf.type.type] at h
      obtain ⟨⟨ts, reg1⟩, h1, h⟩ := ok_bind h
      have g : ∀ t ∈ ts, Good t := parseAll_good (fun v hv reg t reg' hp => ih v hv _ _ _ _ hp) h1
      obtain ⟨rfl, -⟩ := registered_ok h
      rw [attrsOf_attrs]
      exact ⟨.union rfl fun t ht => (g t ht).schema,
        .mk (by simp) (by simpa [Recap.Spec.children] using fun t ht => (g t ht).whole),
        .union fun t ht => (g t ht).kept, says_union rfl (attrs_aliased _ _) fun t ht => (g t ht).says⟩

/-! ## The schemas -/

theorem orderedAll_of {ns : Option String} {vs : List PyVal} (h : ∀ v ∈ vs, ∀ env, ∃ env', Ordered env ns v env') :
    ∀ env, ∃ env', OrderedAll env ns vs env' := by
  induction vs with
  | nil => exact fun env => ⟨env, .nil⟩
  | cons v vs ih =>
    intro env
    obtain ⟨e1, h1⟩ := h v (by simp) env
    obtain ⟨e2, h2⟩ := ih (fun w hw => h w (by simp [hw])) e1
    exact ⟨e2, .cons h1 h2⟩

theorem steady_ordered {ns : Option String} {v : PyVal} (h : Steady ns v) : ∀ env, ∃ env', Ordered env ns v env' := by
  induction h using Steady.rec (motive_2 := fun ns v _ => ∀ env, ∃ env', Ordered env ns v env') with
  | name hp => exact fun env => ⟨_, .primitiveName hp⟩
  | primitive h1 h2 h3 => exact fun env => ⟨_, .primitive h1 h2 h3⟩
  | logical h1 h2 _ h3 => exact fun env => ⟨_, .logical h1 h2 h3⟩
  | enum h1 h2 h3 => exact fun env => ⟨_, .enum h1 h2 h3⟩
  | array h1 h2 h3 _ ih => exact fun env => (ih env).elim fun _ h => ⟨_, .array h1 h2 h3 h⟩
  | map h1 h2 h3 _ ih => exact fun env => (ih env).elim fun _ h => ⟨_, .map h1 h2 h3 h⟩
  | record h1 h2 h3 h4 _ ih => exact fun env => (orderedAll_of ih env).elim fun _ h => ⟨_, .record h1 h2 h3 h4 h⟩
  | fieldName hp => exact ⟨_, .primitiveName hp⟩
  | fieldPrimitive h1 h2 h3 => exact ⟨_, .primitive h1 h2 h3⟩
  | union _ ih env => exact (orderedAll_of ih env).elim fun _ h => ⟨_, .union h⟩

/-- There are no references, so definitions do not matter. -/
theorem steady_alone {ns : Option String} {v : PyVal} (h : Steady ns v) : ∀ env env' x, Datum env ns v x → Datum env' ns v x := by
  induction h using Steady.rec (motive_2 := fun ns v _ => ∀ env env' x, Datum env ns v x → Datum env' ns v x) with
  | name hp => exact fun env env' x hd => .primitiveName (datum_name hd hp)
  | primitive h1 h2 h3 => exact fun env env' x hd => .primitive h2.type (unannotated h2) (datum_primitive hd h2 h3)
  | logical h1 h2 _ h3 => exact fun env env' x hd => .logical h1 h2 (datum_logical hd h1 h2)
  | enum h1 h2 h3 =>
    intro env env' x hd
    obtain ⟨s, rfl, hs⟩ := datum_enum hd h2 h3
    exact .enum h2.type h3 hs
  | array h1 h2 h3 _ ih =>
    intro env env' x hd
    obtain ⟨xs, rfl, hx⟩ := datum_array hd h2 h3
    exact .array h2.type h3 fun y hy => ih _ _ _ (hx y hy)
  | map h1 h2 h3 _ ih =>
    intro env env' x hd
    obtain ⟨ps, rfl, hk, hx⟩ := datum_map hd h2 h3
    exact .map h2.type h3 hk fun y hy => ih _ _ _ (hx y hy)
  | record h1 h2 h3 h4 _ ih =>
    intro env env' x hd
    obtain ⟨xs, rfl, hl, hx⟩ := datum_record hd h2 h1 h3 h4
    exact .record h2.type h1 h3 (fieldTypes_of h4) hl fun i w y hw hy =>
      ih w (List.mem_of_getElem? hw) _ _ _ (hx i w y hw hy)
  | fieldName hp env env' x hd => exact .primitiveName (datum_name hd hp)
  | fieldPrimitive h1 h2 h3 env env' x hd => exact .primitive h2.type (unannotated h2) (datum_primitive hd h2 h3)
  | union _ ih env env' x hd =>
    cases hd with
    | union hv hd => exact .union hv (ih _ hv _ _ _ hd)

theorem steady_noFixed {top : Option String} {all : PyVal} (h : Steady top all) : NoFixed top all := by
  have key : ∀ {ns v ns' w}, Inside ns v ns' w → Steady ns v ∨ SteadyField ns v → ∀ d, w = .dict d → ¬Is d "fixed" := by
    intro ns v ns' w hi
    induction hi with
    | @here ns v =>
      rintro h d rfl hd
      have hp : ∀ {s}, HasType d (.str s) → (∃ x, Primitive s x) → False := by
        rintro s h1 ⟨x, h2⟩
        exact primitive_names h2 (by rw [is_eq (s := s) h1.type hd]; decide)
      have hn : ∀ {s}, HasType d (.str s) → s ≠ "fixed" → False := fun h1 h2 => h2 (is_eq h1.type hd)
      rcases h with h | h
      · cases h with
        | primitive _ h1 h2 => exact hp h1 h2
        | logical _ _ h1 => exact h1 hd
        | enum _ h1 => exact hn h1 (by decide)
        | array _ h1 => exact hn h1 (by decide)
        | map _ h1 => exact hn h1 (by decide)
        | record _ h1 => exact hn h1 (by decide)
      · cases h with
        | fieldPrimitive _ h1 h2 => exact hp h1 h2
    | member hv _ ih =>
      rintro (h | h)
      · cases h
      · cases h with
        | union h => exact ih (.inl (h _ hv))
    | @items ns d v ns' w h1 h2 _ ih =>
      rintro (h | h)
      · cases h with
        | primitive _ g1 g2 => exact (g2.elim fun x g2 => primitive_names g2 (by rw [is_eq g1.type h1]; decide)).elim
        | logical _ g => cases g <;> simp_all [Is]
        | enum _ g => exact absurd (is_eq g.type h1) (by decide)
        | map _ g => exact absurd (is_eq g.type h1) (by decide)
        | record _ g => exact absurd (is_eq g.type h1) (by decide)
        | array _ _ g1 g2 => rw [h2] at g1; cases g1; exact ih (.inl g2)
      · cases h with
        | fieldPrimitive _ g1 g2 => exact (g2.elim fun x g2 => primitive_names g2 (by rw [is_eq g1.type h1]; decide)).elim
    | @values ns d v ns' w h1 h2 _ ih =>
      rintro (h | h)
      · cases h with
        | primitive _ g1 g2 => exact (g2.elim fun x g2 => primitive_names g2 (by rw [is_eq g1.type h1]; decide)).elim
        | logical _ g => cases g <;> simp_all [Is]
        | enum _ g => exact absurd (is_eq g.type h1) (by decide)
        | array _ g => exact absurd (is_eq g.type h1) (by decide)
        | record _ g => exact absurd (is_eq g.type h1) (by decide)
        | map _ _ g1 g2 => rw [h2] at g1; cases g1; exact ih (.inl g2)
      · cases h with
        | fieldPrimitive _ g1 g2 => exact (g2.elim fun x g2 => primitive_names g2 (by rw [is_eq g1.type h1]; decide)).elim
    | @field ns d name q vs ws v ns' w h1 h2 h3 h4 h5 _ ih =>
      rintro (h | h)
      · cases h with
        | primitive _ g1 g2 => exact (g2.elim fun x g2 => primitive_names g2 (by rw [is_eq g1.type h1]; decide)).elim
        | logical _ g => cases g <;> simp_all [Is]
        | enum _ g => exact absurd (is_eq g.type h1) (by decide)
        | array _ g => exact absurd (is_eq g.type h1) (by decide)
        | map _ g => exact absurd (is_eq g.type h1) (by decide)
        | record g1 _ g3 g4 g5 =>
          rw [h3] at g3
          cases g3
          cases fieldTypes_eq (fieldTypes_of g4) h4
          cases header_ns g1 h2
          exact ih (.inr (g5 _ h5))
      · cases h with
        | fieldPrimitive _ g1 g2 => exact (g2.elim fun x g2 => primitive_names g2 (by rw [is_eq g1.type h1]; decide)).elim
  exact fun ns' d hi hd => absurd hd (key hi (.inl h) d rfl)

/-! ## Values of types without references -/

theorem whole_holds {reg : Registry} {t : RType} {x : Val} (h : HoldsIn reg t x) (hw : Whole t) : Holds t x := by
  induction h with
  | leaf _ h => exact h
  | list _ ih => cases hw with | mk _ h => exact .list fun x hx => ih x hx (h _ (by simp [Recap.Spec.children]))
  | map _ _ ih1 ih2 =>
    cases hw with
    | mk _ h =>
      exact .map (fun p hp => ih1 p hp (h _ (by simp [Recap.Spec.children]))) fun p hp => ih2 p hp (h _ (by simp [Recap.Spec.children]))
  | struct hl _ ih =>
    cases hw with
    | mk _ h =>
      exact .struct hl fun i f x hf hx => ih i f x hf hx (h _ (by simpa [Recap.Spec.children] using List.mem_of_getElem? hf))
  | union hm _ ih => cases hw with | mk _ h => exact .union hm (ih (h _ (by simpa [Recap.Spec.children] using hm)))
  | reference => cases hw with | mk h _ => exact absurd rfl (h _ _)

theorem holds_in {t : RType} {x : Val} (h : Holds t x) (reg : Registry) : HoldsIn reg t x := by
  induction h with
  | list _ ih => exact .list ih
  | map _ _ ih1 ih2 => exact .map ih1 ih2
  | struct hl _ ih => exact .struct hl ih
  | union hm _ ih => exact .union hm ih
  | null => exact .leaf rfl .null
  | bool => exact .leaf rfl .bool
  | int h1 h2 => exact .leaf rfl (.int h1 h2)
  | float h => exact .leaf rfl (.float h)
  | string h1 h2 => exact .leaf rfl (.string h1 h2)
  | uuid h1 h2 h3 => exact .leaf rfl (.uuid h1 h2 h3)
  | bytes h1 h2 => exact .leaf rfl (.bytes h1 h2)
  | decimal h1 h2 h3 h4 h5 h6 => exact .leaf rfl (.decimal h1 h2 h3 h4 h5 h6)
  | instant h1 h2 h3 h4 => exact .leaf rfl (.instant h1 h2 h3 h4)
  | date h1 h2 h3 => exact .leaf rfl (.date h1 h2 h3)
  | time h1 h2 h3 h4 => exact .leaf rfl (.time h1 h2 h3 h4)
  | enum h => exact .leaf rfl (.enum h)

/-- The definitions that a schema is used with do not matter, when it is written for a type without references. -/
theorem written_alone {live : Registry} {t : RType} {d : Dict} (ht : Whole t) (h : fromRecap live t = .ok d)
    {env : Env} {ns : Option String} {x : Val} (hx : Datum env ns (.dict d) x) : Datum [] ns (.dict d) x := by
  obtain ⟨n, v, hv, hd⟩ := AvroWrite.fromRecap_datum h
  refine (AvroWrite.stored_schema ht h ns x).mpr (((AvroWrite.stored_written (env := env) ht hv).1 ns x).mp ?_)
  rcases hd with rfl | ⟨s, rfl, rfl⟩
  · exact hx
  · exact AvroWrite.datum_shorten hx

/-! ## The property -/

theorem toRecap_parse {v : PyVal} {ns : Option String} {reg reg' : Registry} {t : RType}
    (h : toRecap v ns reg = .ok (t, reg')) : parseF v.size v ns reg = .ok (t, reg') := by
  unfold toRecap at h
  obtain ⟨⟨t', reg1⟩, hp, h⟩ := ok_bind h
  cases t' <;> simp [pure, Except.pure] at h
  obtain ⟨rfl, rfl⟩ := h
  exact hp

/-- **C154 (partial).**  If the schema has no references and no `fixed`, if its logical types apply, and if the type of
each field is primitive or a union, then the schema that is written for what is read has the same data.

Missing: fields of other types (`C154_array_refuted`, `C154_date_refuted`) and `fixed` (`C154_fixed_refuted`), of which
this is false; references to records and enums. -/
theorem C154_same_partial {v : PyVal} {ns : Option String} (hs : Steady ns v) {reg reg' live : Registry} {t : RType} {d : Dict}
    (hr : toRecap v ns reg = .ok (t, reg')) (hw : fromRecap live t = .ok d) (x : Val) :
    DatumOf .none (.dict d) x ↔ DatumOf ns v x := by
  have g := steady_good hs _ _ _ _ (toRecap_parse hr)
  obtain ⟨env, ho⟩ := steady_ordered hs []
  have hdef := (C128_data_partial ho).1
  constructor
  · rintro ⟨env', -, hx⟩
    have h1 := AvroWrite.C137_only_partial g.whole g.kept hw (written_alone g.whole hw hx)
    exact ⟨env, hdef, loose_datum (steady_noFixed hs) (fun s ns' w hl => (hdef s ns' w hl).1)
      (loose_read ho hr (holds_in h1 _)) .here⟩
  · rintro ⟨env', -, hx⟩
    have h1 := (C128_data_partial ho).2 _ _ _ _ hr (steady_alone hs _ env _ hx)
    exact ⟨[], fun s ns' w h => (by cases h), AvroWrite.C129_values_partial g.schema hw (whole_holds h1 g.whole)⟩

/-- **C154 (partial).**  For such a schema something is written. -/
theorem C154_written_partial {v : PyVal} {ns : Option String} (hs : Steady ns v) {reg reg' : Registry} {t : RType}
    (hr : toRecap v ns reg = .ok (t, reg')) (live : Registry) : ∃ d, fromRecap live t = .ok d := by
  obtain ⟨v, hv⟩ := (steady_good hs _ _ _ _ (toRecap_parse hr)).says live (weightReg 0 live) _ (Nat.le_refl _)
  unfold fromRecap
  rw [hv]
  cases v <;> exact ⟨_, rfl⟩

/-! ### Schemas with other data afterwards -/

theorem datumOf_alone {ns : Option String} {v : PyVal} {x : Val} (h : Datum [] ns v x) : DatumOf ns v x :=
  ⟨[], fun s ns' w h => (by cases h), h⟩

/-- A record with one field. -/
def oneField (type : PyVal) : PyVal :=
  .dict [("type", .str "record"), ("name", .str "Row"), ("fields", .list [.dict [("name", .str "x"), ("type", type)]])]

theorem oneField_datum {type : PyVal} {x : Val} (h : Datum [] (some "app") type x) :
    Datum [] (some "app") (oneField type) (.struct [x]) := by
  refine .record (q := some "app") rfl (.short (.inherited rfl) rfl (by decide)) rfl (.cons rfl .nil) rfl fun i w y hw hy => ?_
  cases i with
  | zero => simp at hw hy; subst hw hy; exact h
  | succ i => simp at hw

/-- The type that is read for a record with a field of this type. -/
def rowType (f : RType) : RType :=
  .struct [f] { alias := .str "app.Row", extra := [("name", .str "Row")] }

/-- What is written for it, with this for the field. -/
def rowSchema (field : Dict) : Dict :=
  [("name", .str "Row"), ("aliases", .list [.str "app.Row"]), ("type", .str "record"), ("fields", .list [.dict field])]

/-- Lists of integers, as the type of the field. -/
def ints : RType := .list (.int (.int 32) (.bool true) {}) .none (.bool true) { extra := [("name", .str "x")] }

/-- Dates, as the type of the field. -/
def dates : RType :=
  .int (.int 32) (.bool true) { logical := .str "build.recap.Date", extra := [("unit", .str "day"), ("name", .str "x")] }

/-- **C154 is false of arrays.**  The schema that is written for a record with a field that is an array has no data at
all: the field has the type `"array"`, which Avro takes for a name. -/
theorem C154_array_refuted : ∃ t reg' d, toRecap (oneField (.dict [("type", .str "array"), ("items", .str "int")])) (some "app")
    newRegistry = .ok (t, reg') ∧ fromRecap reg' t = .ok d ∧
    DatumOf (some "app") (oneField (.dict [("type", .str "array"), ("items", .str "int")])) (.struct [.list [.int 1]]) ∧
    ∀ x, ¬DatumOf .none (.dict d) x := by
  have hw : ∀ live, fromRecap live (rowType ints) =
      .ok (rowSchema [("name", .str "x"), ("type", .str "array"), ("items", .str "int")]) := fun _ => rfl
  refine ⟨rowType ints, _, _, rfl, hw _, datumOf_alone (oneField_datum (.array rfl rfl ?_)), ?_⟩
  · intro y hy
    simp at hy
    subst hy
    exact .primitiveName (.int (by simp [IntValue]))
  · rintro x ⟨env, -, hx⟩
    exact AvroWrite.C129_inline_refuted (f := ints) (List.mem_cons_self ..) (.list rfl) (hw []) env .none x hx

/-- **C154 is false of dates.**  A date is no datum of the schema that is written for a record with a date, as Avro ignores
the logical types of fields; integers are data of it. -/
theorem C154_date_refuted : ∃ t reg' d, toRecap (oneField (.dict [("type", .str "int"), ("logicalType", .str "date")])) (some "app")
    newRegistry = .ok (t, reg') ∧ fromRecap reg' t = .ok d ∧
    DatumOf (some "app") (oneField (.dict [("type", .str "int"), ("logicalType", .str "date")])) (.struct [.date 19000]) ∧
    ¬DatumOf .none (.dict d) (.struct [.date 19000]) ∧ DatumOf .none (.dict d) (.struct [.int 19000]) := by
  have hw : ∀ live, fromRecap live (rowType dates) =
      .ok (rowSchema [("name", .str "x"), ("type", .str "int"), ("logicalType", .str "date")]) := fun _ => rfl
  refine ⟨rowType dates, _, _, rfl, hw _, datumOf_alone (oneField_datum (.logical rfl (.date rfl) (.date (by simp [IntValue])))), ?_, ?_⟩
  · rintro ⟨env, -, hx⟩
    refine AvroWrite.C129_logical_refuted (f := dates) (List.mem_cons_self ..) rfl (by decide) (hw []) env .none _ ?_ hx
    refine .struct rfl fun i f x hf hx => ?_
    cases i with
    | zero => simp at hf hx; subst hf hx; exact .date rfl rfl (by simp [IntValue])
    | succ i => simp at hf
  · refine datumOf_alone (.record (q := some "_root") rfl (.short (.inherited rfl) rfl (by decide)) rfl (.cons rfl .nil) rfl
      fun i w x hw hx => ?_)
    cases i with
    | zero => simp at hw hx; subst hw hx; exact .primitiveName (.int (by simp [IntValue]))
    | succ i => simp at hw

/-- Two bytes, or nothing. -/
def maybeTwo : PyVal :=
  .list [.str "null", .dict [("type", .str "fixed"), ("name", .str "Two"), ("size", .int 2)]]

/-- **C154 is false of `fixed`.**  Three bytes are a datum of the schema that is written for two bytes or null. -/
theorem C154_fixed_refuted : ∃ t reg' d, toRecap (oneField maybeTwo) (some "app") newRegistry = .ok (t, reg') ∧
    fromRecap reg' t = .ok d ∧ DatumOf .none (.dict d) (.struct [.bytes 3]) ∧
    ¬DatumOf (some "app") (oneField maybeTwo) (.struct [.bytes 3]) := by
  refine ⟨_, _, rowSchema [("name", .str "x"), ("aliases", .list [.str "app.x"]), ("type", .list [.str "null",
    .dict [("name", .str "Two"), ("aliases", .list [.str "app.Two"]), ("type", .str "bytes")]])], rfl, rfl, ?_, ?_⟩
  · refine datumOf_alone (.record (q := some "_root") rfl (.short (.inherited rfl) rfl (by decide)) rfl (.cons rfl .nil) rfl
      fun i w x hw hx => ?_)
    cases i with
    | zero =>
      simp at hw hx
      subst hw hx
      exact .union (List.mem_cons_of_mem _ (List.mem_cons_self ..)) (.primitive (s := "bytes") rfl
        (AvroWrite.unannotated rfl) (.bytes (by decide)))
    | succ i => simp at hw
  · rintro ⟨env, -, hx⟩
    obtain ⟨xs, hxs, -, h⟩ := datum_record (vs := [.dict [("name", .str "x"), ("type", maybeTwo)]]) (ws := [maybeTwo]) hx
      ⟨rfl, rfl⟩ (.short (.inherited rfl) rfl (by decide)) rfl (.cons (x := "x") rfl (by decide) rfl ⟨rfl, rfl⟩ .nil)
    cases hxs
    have := h 0 _ _ rfl rfl
    cases this with
    | union hv hd =>
      simp only [List.mem_cons, List.not_mem_nil, or_false] at hv
      rcases hv with rfl | rfl
      · exact absurd (datum_name hd ⟨_, .null⟩) (by intro h; generalize hs : "null" = s at h; cases h <;> simp at hs)
      · exact absurd (datum_fixed (n := 2) hd ⟨rfl, rfl⟩ rfl) (by simp)

/-- A point. -/
def point : PyVal :=
  .dict [("type", .str "record"), ("name", .str "Point"), ("fields", .list [.dict [("name", .str "x"), ("type", .str "int")]])]

/-- A line, whose second end has the type of the first. -/
def line : PyVal :=
  .dict [("type", .str "record"), ("name", .str "Line"), ("fields", .list [
    .dict [("name", .str "a"), ("type", .list [.str "null", point])], .dict [("name", .str "b"), ("type", .str "Point")]])]

/-- What is written for a point. -/
def pointAgain : Dict :=
  [("name", .str "Point"), ("aliases", .list [.str "app.Point"]), ("type", .str "record"), ("fields", .list [
    .dict [("name", .str "x"), ("aliases", .list [.str "app.x"]), ("type", .str "int")]])]

/-- What is written for a line. -/
def lineAgain : Dict :=
  [("name", .str "Line"), ("aliases", .list [.str "app.Line"]), ("type", .str "record"), ("fields", .list [
    .dict [("name", .str "a"), ("aliases", .list [.str "app.a"]), ("type", .list [.str "null", .dict pointAgain])],
    .dict [("name", .str "b"), ("type", .str "app.Point")]])]

theorem fieldTypes_line {ws : List PyVal} (h : FieldTypes [
    .dict [("name", .str "a"), ("aliases", .list [.str "app.a"]), ("type", .list [.str "null", .dict pointAgain])],
    .dict [("name", .str "b"), ("type", .str "app.Point")]] ws) : ws = [.list [.str "null", .dict pointAgain], .str "app.Point"] :=
  fieldTypes_eq h (.cons rfl (.cons rfl .nil))

theorem inside_line {ns' : Option String} {w : PyVal} (h : Inside .none (.dict lineAgain) ns' w) {d : Dict} (hd : w = .dict d) :
    d = lineAgain ∧ ns' = .none ∨ d = pointAgain ∧ ns' = some "_root" := by
  subst hd
  cases h with
  | here => exact .inl ⟨rfl, rfl⟩
  | items h => exact absurd (is_eq h (s' := "record") rfl) (by decide)
  | values h => exact absurd (is_eq h (s' := "record") rfl) (by decide)
  | field _ h1 h2 h3 h4 h5 =>
    have hq := header_ns h1 (.short (.inherited rfl) (x := "Line") rfl (by decide))
    simp only [root] at hq
    subst hq
    cases h2
    rw [fieldTypes_line h3] at h4
    simp only [List.mem_cons, List.not_mem_nil, or_false] at h4
    rcases h4 with rfl | rfl
    · cases h5 with
      | member hv h =>
        simp only [List.mem_cons, List.not_mem_nil, or_false] at hv
        rcases hv with rfl | rfl
        · cases h
        · cases h with
          | here => exact .inr ⟨rfl, rfl⟩
          | items h => exact absurd (is_eq h (s' := "record") rfl) (by decide)
          | values h => exact absurd (is_eq h (s' := "record") rfl) (by decide)
          | field _ _ h2 h3 h4 h5 =>
            cases h2
            cases fieldTypes_eq h3 (.cons rfl .nil)
            simp only [List.mem_cons, List.not_mem_nil, or_false] at h4
            subst h4
            cases h5
    · cases h5

/-- **C154 is false of references.**  The schema that is written for a record with a reference to a record has no data: it
refers to a name that is only an alias of that record, as the namespace is not written. -/
theorem C154_reference_refuted : ∃ t reg', toRecap line (some "app") newRegistry = .ok (t, reg') ∧
    fromRecap reg' t = .ok lineAgain ∧ DatumOf (some "app") line (.struct [.null, .struct [.int 1]]) ∧
    ∀ x, ¬DatumOf .none (.dict lineAgain) x := by
  refine ⟨_, _, rfl, rfl, ⟨[("app.Point", some "app", point)], ?_, ?_⟩, ?_⟩
  · intro s ns' w h
    simp only [lookup] at h
    split at h <;> cases h
    subst_vars
    exact ⟨.field (q := some "app") (v := .list [.str "null", point]) rfl (.short (.inherited rfl) (x := "Line") rfl (by decide)) rfl
      (.cons rfl (.cons rfl .nil)) (by simp) (.member (v := point) (by simp) .here), _, "Point", some "app", rfl,
      .short (.inherited rfl) (x := "Point") rfl (by decide), .inl rfl⟩
  · refine .record (q := some "app") rfl (.short (.inherited rfl) (x := "Line") rfl (by decide)) rfl (.cons rfl (.cons rfl .nil)) rfl
      fun i w y hw hy => ?_
    match i with
    | 0 => simp at hw hy; subst hw hy; exact .union (List.mem_cons_self ..) (.primitiveName .null)
    | 1 =>
      simp at hw hy
      subst hw hy
      refine .reference (ns' := some "app") (v := point) ⟨by decide, by decide⟩ rfl ?_
      refine .record (q := some "app") rfl (.short (.inherited rfl) (x := "Point") rfl (by decide)) rfl (.cons rfl .nil) rfl
        fun i w y hw hy => ?_
      cases i with
      | zero => simp at hw hy; subst hw hy; exact .primitiveName (.int (by simp [IntValue]))
      | succ i => simp at hw
    | i + 2 => simp at hw
  · rintro x ⟨env, he, hx⟩
    have : ∃ y q, Datum env q (.str "app.Point") y := by
      generalize hv : PyVal.dict lineAgain = v at hx
      cases hx with
      | record _ _ h3 h4 h5 h6 =>
        cases hv
        cases h3
        rw [fieldTypes_line h4] at h5 h6
        have h7 := fun x2 => h6 1 _ x2 rfl
        exact ⟨_, _, h7 _ (List.getElem?_eq_getElem (by rw [← h5]; decide))⟩
      | primitive h1 _ h2 => cases hv; cases is_eq h1 (s' := "record") rfl; exact absurd (by decide) (primitive_names h2)
      | logical h1 => cases hv; cases h1
      | fixed h1 => cases hv; exact absurd (is_eq h1 (s' := "record") rfl) (by decide)
      | enum h1 => cases hv; exact absurd (is_eq h1 (s' := "record") rfl) (by decide)
      | array h1 => cases hv; exact absurd (is_eq h1 (s' := "record") rfl) (by decide)
      | map h1 => cases hv; exact absurd (is_eq h1 (s' := "record") rfl) (by decide)
      | _ => cases hv
    obtain ⟨y, q, hy⟩ := this
    cases hy with
    | primitiveName h => generalize hs : "app.Point" = s at h; cases h <;> simp at hs
    | reference _ hl _ =>
      obtain ⟨hi, d, x', q', rfl, hh, -⟩ := he _ _ _ hl
      rcases inside_line hi rfl with ⟨rfl, rfl⟩ | ⟨rfl, rfl⟩
      · have := (header_eq hh).symm.trans (header_eq (.short (.inherited rfl) (x := "Line") rfl (by decide)))
        simp [root, Spec.alias, target] at this
      · have := (header_eq hh).symm.trans (header_eq (.short (.inherited rfl) (x := "Point") rfl (by decide)))
        simp [root, Spec.alias, target] at this

/-- **C154 is false.** -/
theorem C154_same_refuted : ¬SameData := by
  intro h
  obtain ⟨t, reg', d, h1, h2, h3, h4⟩ := C154_array_refuted
  exact h4 _ ((h _ _ _ _ _ _ _ h1 h2).mpr h3)

/-! ### A case that meets the hypotheses -/

/-- A record with a number, a text or nothing, and a list of points in time or a record with an enum. -/
def visitor : Dict :=
  [("type", .str "record"), ("name", .str "Visitor"), ("doc", .str "who was there"), ("fields", .list [
    .dict [("name", .str "id"), ("type", .str "long")],
    .dict [("name", .str "note"), ("type", .list [.str "null", .str "string"]), ("default", .none)],
    .dict [("name", .str "at"), ("type", .list [
      .dict [("type", .str "array"), ("items", .dict [("type", .str "long"), ("logicalType", .str "timestamp-millis")])],
      .dict [("type", .str "record"), ("name", .str "Day"), ("fields", .list [
        .dict [("name", .str "day"), ("type", .list [.dict [("type", .str "enum"), ("name", .str "WeekDay"),
          ("symbols", .list [.str "MO", .str "TU"])]])]])]])]])]

theorem visitor_steady : Steady (some "app") (.dict visitor) := by
  refine .record (q := some "app") (.short (.inherited rfl) rfl (by decide)) ⟨rfl, rfl⟩ rfl
    (.cons (x := "id") rfl (by decide) rfl ⟨rfl, rfl⟩ (.cons (x := "note") rfl (by decide) rfl ⟨rfl, rfl⟩
      (.cons (x := "at") rfl (by decide) rfl ⟨rfl, rfl⟩ .nil))) fun w hw => ?_
  simp only [List.mem_cons, List.not_mem_nil, or_false] at hw
  rcases hw with rfl | rfl | rfl
  · exact .fieldName ⟨.int 0, .long (by simp [IntValue])⟩
  · refine .union fun v hv => ?_
    simp only [List.mem_cons, List.not_mem_nil, or_false] at hv
    rcases hv with rfl | rfl
    · exact .name ⟨_, .null⟩
    · exact .name ⟨.str "", .string (by decide)⟩
  · refine .union fun v hv => ?_
    simp only [List.mem_cons, List.not_mem_nil, or_false] at hv
    rcases hv with rfl | rfl
    · exact .array ⟨rfl, rfl⟩ ⟨rfl, rfl⟩ rfl (.logical (l := "timestamp-millis") rfl (.timestampMillis rfl)
        (by simp [Is]) (by simp [Is]))
    · refine .record (q := some "app") (.short (.inherited rfl) rfl (by decide)) ⟨rfl, rfl⟩ rfl
        (.cons (x := "day") rfl (by decide) rfl ⟨rfl, rfl⟩ .nil) fun w hw => ?_
      simp only [List.mem_cons, List.not_mem_nil, or_false] at hw
      subst hw
      refine .union fun v hv => ?_
      simp only [List.mem_cons, List.not_mem_nil, or_false] at hv
      subst hv
      exact .enum (.short (.inherited rfl) rfl (by decide)) ⟨rfl, rfl⟩ rfl

/-- It is read and written again, with the same data. -/
example : ∃ t reg' d, toRecap (.dict visitor) (some "app") newRegistry = .ok (t, reg') ∧ fromRecap reg' t = .ok d ∧
    ∀ x, DatumOf .none (.dict d) x ↔ DatumOf (some "app") (.dict visitor) x := by
  obtain ⟨⟨t, reg'⟩, h⟩ : ∃ r, toRecap (.dict visitor) (some "app") newRegistry = .ok r := ⟨_, rfl⟩
  obtain ⟨d, hd⟩ := C154_written_partial visitor_steady h reg'
  exact ⟨t, reg', d, h, hd, C154_same_partial visitor_steady h hd⟩

end Recap.AvroData
