import Verif.AvroRead
import Verif.AvroNames
import Verif.ResolveThms

/-!
# What is read of Avro schemas

C62 and C94 - C98.
-/

set_option autoImplicit false

namespace Recap.Avro

open Recap.Avro.Spec

variable {ns : Option String} {reg : Registry}

/-- A record is read by `to_recap` as by `_parse`. -/
theorem toRecap_exactly {v : PyVal} {fs : List RType} {a : Attrs} {names : List String}
    (h : Means ns v (.struct fs a) names) : Exactly (toRecap v ns reg) reg (.struct fs a) names := by
  have h1 := means_parse h v.size reg (Nat.le_refl _)
  constructor
  · intro hn
    obtain ⟨reg', h2⟩ := h1.1 hn
    exact ⟨reg', by rw [toRecap, parse, h2]; rfl⟩
  · intro t' reg' h2
    unfold toRecap at h2
    obtain ⟨⟨t, r⟩, h3, h2⟩ := ok_bind h2
    obtain ⟨rfl, h4, h5⟩ := h1.2 _ _ h3
    cases h2
    exact ⟨rfl, h4, h5⟩

/-! ## C62 -/

/-- **C62** (partial): a record of records, arrays, maps, unions, enums, fixed, primitive and logical
types is accepted if and only if the full names of its types and of its fields with a simple type are
distinct, well-formed and new to the converter.

Missing: fields of the same name in two records of the same namespace (`C62_fields_refuted`) and unions
directly in arrays and maps (`C62_array_refuted`), which are refused. -/
theorem C62_accepted_partial {v : PyVal} {fs : List RType} {a : Attrs} {names : List String}
    (h : Means ns v (.struct fs a) names) : (∃ t reg', toRecap v ns reg = .ok (t, reg')) ↔ NewNames reg names := by
  obtain ⟨h1, h2⟩ := toRecap_exactly (reg := reg) h
  exact ⟨fun ⟨t, reg', ht⟩ => (h2 t reg' ht).2.1, fun hn => ⟨_, h1 hn⟩⟩

/-- A schema with a namespace, a nested enum, a union, a map and a reference. -/
def order : Dict :=
  [("type", .str "record"), ("name", .str "shop.Order"), ("doc", .str "An order."), ("fields", .list [
    .dict [("name", .str "id"), ("type", .str "long"), ("doc", .str "A number.")],
    .dict [("name", .str "state"), ("default", .str "NEW"), ("type",
      .dict [("type", .str "enum"), ("name", .str "State"), ("symbols", .list [.str "NEW", .str "OLD"])])],
    .dict [("name", .str "parent"), ("type", .list [.str "null", .str "Order"])],
    .dict [("name", .str "at"), ("type", .str "long"), ("logicalType", .str "timestamp-millis")],
    .dict [("name", .str "prices"), ("type", .str "map"), ("values", .str "double")]])]

/-- What it is read as. -/
def orderType : RType :=
  .struct [
    .int (.int 64) (.bool true) { alias := .str "shop.id", doc := .str "A number.", extra := [("name", .str "id")] },
    .enum (.list [.str "NEW", .str "OLD"]) { alias := .str "shop.State", extra := [("name", .str "state"), ("default", .str "NEW")] },
    .union [.null {}, .proxy .none { alias := .str "shop.Order" }] { alias := .str "shop.parent", extra := [("name", .str "parent")] },
    .int (.int 64) (.bool true) { logical := .str "build.recap.Timestamp", extra := [("unit", .str "millisecond"), ("name", .str "at")] },
    .map (.string (.int 9223372036854775807) (.bool true) {}) (.float (.int 64) {})
      { alias := .str "shop.prices", extra := [("name", .str "prices")] }]
    { alias := .str "shop.Order", doc := .str "An order.", extra := [("name", .str "Order")] }

theorem means_order : Means .none (.dict order) orderType
    ["shop.id", "shop.State", "shop.parent", "shop.prices", "shop.Order"] := by
  refine .record (q := some "shop") (vs := [_, _, _, _, _]) (names := ["shop.id", "shop.State", "shop.parent", "shop.prices"])
    (.full (p := "shop") (x := "Order") (.inherited rfl) rfl (by decide) (by decide)) ⟨rfl, rfl⟩ rfl ?_
  refine .cons (names := ["shop.id"]) (.primitive (name := some ("shop.id", "id")) (.short (x := "id") (.inherited rfl) rfl (by decide)) ⟨rfl, rfl⟩ .long) ?_
  refine .cons (names := ["shop.State"]) (.nested (name := some ("shop.state", "state"))
    (t := .enum (.list [.str "NEW", .str "OLD"]) { alias := .str "shop.State", extra := [("name", .str "State")] })
    (.short (x := "state") (.inherited rfl) rfl (by decide)) ⟨rfl, rfl⟩
    (.enum (name := some ("shop.State", "State")) (.short (x := "State") (.inherited rfl) rfl (by decide))
      ⟨rfl, rfl⟩ rfl)) ?_
  refine .cons (names := ["shop.parent"]) (.union (name := some ("shop.parent", "parent")) (names := [])
    (.short (x := "parent") (.inherited rfl) rfl (by decide)) ⟨rfl, rfl⟩ (.cons (names := []) (.primitiveName .null)
      (.cons (names := []) (.referenceName (s := "Order") ⟨by decide, by decide⟩) .nil))) ?_
  refine .cons (names := []) (.logical (name := some ("shop.at", "at")) (.short (x := "at") (.inherited rfl) rfl (by decide)) rfl
    .timestampMillis) ?_
  exact .cons (names := ["shop.prices"]) (.map (name := some ("shop.prices", "prices")) (names := [])
    (.short (x := "prices") (.inherited rfl) rfl (by decide)) ⟨rfl, rfl⟩ rfl (.primitiveName .double)) .nil

/-- C62 of this schema. -/
example : ∃ t reg', toRecap (.dict order) .none newRegistry = .ok (t, reg') :=
  (C62_accepted_partial means_order).mpr ⟨by decide, by decide +kernel⟩

/-- Two nested records with a field of the same name. -/
def sameFields : PyVal :=
  let field := .dict [("name", .str "id"), ("type", .str "int")]
  .dict [("type", .str "record"), ("name", .str "R"), ("fields", .list [
    .dict [("name", .str "a"), ("type", .dict [("type", .str "record"), ("name", .str "A"), ("fields", .list [field])])],
    .dict [("name", .str "b"), ("type", .dict [("type", .str "record"), ("name", .str "B"), ("fields", .list [field])])]])]

/-- **C62** refuted: two records in the same namespace cannot have a field of the same name. -/
theorem C62_fields_refuted : toRecap sameFields (some "app") newRegistry = .error .valueError := by
  decide +kernel

/-- **C62** refuted: an array or a map of a union is refused, whatever the union. -/
theorem C62_array_refuted (vs : List PyVal) (h : .str "doc" ∉ vs ∧ .str "namespace" ∉ vs ∧ .str "name" ∉ vs ∧ .str "default" ∉ vs) :
    toRecap (.dict [("type", .str "record"), ("name", .str "R"), ("fields", .list [
      .dict [("name", .str "xs"), ("type", .str "array"), ("items", .list vs)]])]) (some "app") reg = .error .attributeError ∧
    toRecap (.dict [("type", .str "record"), ("name", .str "R"), ("fields", .list [
      .dict [("name", .str "xs"), ("type", .str "map"), ("values", .list vs)]])]) (some "app") reg = .error .attributeError := by
  have hx : (["doc", "namespace", "name", "default"].any fun k => vs.any (PyVal.pyEq (.str k))) = false := by
    have : ∀ k, .str k ∉ vs → vs.any (PyVal.pyEq (.str k)) = false := by
      intro k hk
      simp only [List.any_eq_false]
      intro x hx hp
      cases x <;> simp [PyVal.pyEq] at hp
      exact hk (hp ▸ hx)
    simp [this _ h.1, this _ h.2.1, this _ h.2.2.1, this _ h.2.2.2]
  have hs : ∀ (v : PyVal) (k k' : String), ∃ n, (PyVal.dict [("type", .str "record"), ("name", .str "R"), ("fields", .list [
      .dict [("name", .str "xs"), ("type", .str k), (k', v)]])]).size = n + 3 := by
    intro v k k'
    simp only [PyVal.size, PyVal.sizePairs, PyVal.sizeList]
    exact ⟨v.size + 11, by omega⟩
  constructor
  · obtain ⟨n, hn⟩ := hs (.list vs) "array" "items"
    rw [toRecap, parse, hn]
    simp [parseF, parseDict, header, namespaceOf, Dict.get?, copied, Dict.getD, PyVal.truthy, parseType, bind,
      Except.bind, pure, Except.pure, primitive, parseComplex, PyVal.iter, parseAll, hx]
  · obtain ⟨n, hn⟩ := hs (.list vs) "map" "values"
    rw [toRecap, parse, hn]
    simp [parseF, parseDict, header, namespaceOf, Dict.get?, copied, Dict.getD, PyVal.truthy, parseType, bind,
      Except.bind, pure, Except.pure, primitive, parseComplex, PyVal.iter, parseAll, hx]

/-- For example, an array of an integer or null. -/
example : toRecap (.dict [("type", .str "record"), ("name", .str "R"), ("fields", .list [
      .dict [("name", .str "xs"), ("type", .str "array"), ("items", .list [.str "null", .str "int"])]])])
    (some "app") newRegistry = .error .attributeError := (C62_array_refuted _ (by decide)).1

/-! ## C94 -/

/-- **C94**: an accepted schema is read as what it means: the types of the values are those of Avro, the
alias of a type is its full name, and references are to full names.  The converter then knows, in
addition to what it knew, exactly the full names that the schema gives. -/
theorem C94_meaning {v : PyVal} {t' : RType} {fs : List RType} {a : Attrs} {names : List String} {reg' : Registry}
    (h : Means ns v (.struct fs a) names) (hr : toRecap v ns reg = .ok (t', reg')) :
    t' = .struct fs a ∧ Recap.Spec.names reg' = Recap.Spec.names reg ++ names := by
  obtain ⟨h1, -, h2⟩ := (toRecap_exactly (reg := reg) h).2 _ _ hr
  exact ⟨h1, h2⟩

/-- C94 of `order`. -/
example : ∃ reg', toRecap (.dict order) .none newRegistry = .ok (orderType, reg') ∧
    Recap.Spec.names reg' = Recap.Spec.names newRegistry ++ ["shop.id", "shop.State", "shop.parent", "shop.prices", "shop.Order"] := by
  obtain ⟨t, reg', h⟩ := (C62_accepted_partial (reg := newRegistry) means_order).mpr ⟨by decide, by decide +kernel⟩
  obtain ⟨rfl, h2⟩ := C94_meaning means_order h
  exact ⟨reg', h, h2⟩

/-! ## C95 -/

theorem meansAll_get {q : Option String} {vs : List PyVal} {ts : List RType} {names : List String} {i : Nat}
    {v : PyVal} {t : RType} (h : MeansAll q vs ts names) (hv : vs[i]? = some v) (ht : ts[i]? = some t) :
    ∃ names', Means q v t names' := by
  induction vs generalizing ts names i with
  | nil => simp at hv
  | cons w ws ih =>
    cases h with
    | cons h1 h2 =>
      cases i with
      | zero => simp at hv ht; subst hv ht; exact ⟨_, h1⟩
      | succ i => exact ih h2 (by simpa using hv) (by simpa using ht)

theorem same_extra (t : RType) : t = t.withAttrs { t.attrs with extra := t.attrs.extra } := by
  cases t <;> rfl

theorem extra_extra (t : RType) (e e' : Dict) :
    (t.withAttrs { t.attrs with extra := e }).withAttrs { (t.withAttrs { t.attrs with extra := e }).attrs with extra := e' } =
      t.withAttrs { t.attrs with extra := e' } := by
  cases t <;> rfl

theorem means_record {d : Dict} {t : RType} {names : List String} {vs : List PyVal} {fs : List RType} {a : Attrs}
    (h : Means ns (.dict d) t names) (ht : t = .struct fs a) (h1 : Dict.get? d "type" = some (.str "record"))
    (h2 : Dict.get? d "fields" = some (.list vs)) : ∃ q names', MeansAll q vs fs names' := by
  cases h with
  | record hh hk hf hm => rw [h2] at hf; cases hf; cases ht; exact ⟨_, _, hm⟩
  | nested hh hk => rw [hk.type] at h1; cases h1
  | primitive hh hk hp => subst ht; cases hp
  | logical hh hk hp => subst ht; cases hp
  | _ => cases ht

theorem means_union {d : Dict} {t : RType} {names : List String} {vs : List PyVal} {fs : List RType} {a : Attrs}
    (h : Means ns (.dict d) t names) (ht : t = .union fs a) (h1 : Dict.get? d "type" = some (.list vs)) :
    ∃ q names', MeansAll q vs fs names' := by
  cases h with
  | union hh hk hm => rw [hk.type] at h1; cases h1; cases ht; exact ⟨_, _, hm⟩
  | nested hh hk => rw [hk.type] at h1; cases h1
  | primitive hh hk hp => subst ht; cases hp
  | logical hh hk hp => subst ht; cases hp
  | _ => cases ht

theorem means_array {d : Dict} {t u : RType} {names : List String} {v l w : PyVal} {a : Attrs}
    (h : Means ns (.dict d) t names) (ht : t = .list u l w a) (h1 : Dict.get? d "type" = some (.str "array"))
    (h2 : Dict.get? d "items" = some v) : ∃ q names', Means q v u names' := by
  cases h with
  | array hh hk hf hm => rw [h2] at hf; cases hf; cases ht; exact ⟨_, _, hm⟩
  | nested hh hk => rw [hk.type] at h1; cases h1
  | primitive hh hk hp => subst ht; cases hp
  | logical hh hk hp => subst ht; cases hp
  | _ => cases ht

theorem means_map {d : Dict} {t k u : RType} {names : List String} {v : PyVal} {a : Attrs}
    (h : Means ns (.dict d) t names) (ht : t = .map k u a) (h1 : Dict.get? d "type" = some (.str "map"))
    (h2 : Dict.get? d "values" = some v) : ∃ q names', Means q v u names' := by
  cases h with
  | map hh hk hf hm => rw [h2] at hf; cases hf; cases ht; exact ⟨_, _, hm⟩
  | nested hh hk => rw [hk.type] at h1; cases h1
  | primitive hh hk hp => subst ht; cases hp
  | logical hh hk hp => subst ht; cases hp
  | _ => cases ht

/-- Where the schema `v` is read, so are the schemas in it. -/
theorem means_at {v : PyVal} {t u : RType} {d : Dict} (h : At v t d u) : ∀ {ns t' names e},
    Means ns v t' names → t = t'.withAttrs { t'.attrs with extra := e } →
    ∃ ns' u' names' e', Means ns' (.dict d) u' names' ∧ u = u'.withAttrs { u'.attrs with extra := e' } := by
  induction h with
  | here => intro ns t' names e hm ht; exact ⟨_, _, _, _, hm, ht⟩
  | field h1 h2 h3 h4 _ ih =>
    intro ns t' names e hm ht
    cases t' <;> simp [RType.withAttrs] at ht
    obtain ⟨rfl, -⟩ := ht
    obtain ⟨q, names', h5⟩ := means_record hm rfl h1 h2
    obtain ⟨_, h5⟩ := meansAll_get h5 h3 h4
    exact ih h5 (same_extra _)
  | member h1 h3 h4 _ ih =>
    intro ns t' names e hm ht
    cases t' <;> simp [RType.withAttrs] at ht
    obtain ⟨rfl, -⟩ := ht
    obtain ⟨q, names', h5⟩ := means_union hm rfl h1
    obtain ⟨_, h5⟩ := meansAll_get h5 h3 h4
    exact ih h5 (same_extra _)
  | items h1 h2 _ ih =>
    intro ns t' names e hm ht
    cases t' <;> simp [RType.withAttrs] at ht
    obtain ⟨rfl, -⟩ := ht
    obtain ⟨q, names', h5⟩ := means_array hm rfl h1 h2
    exact ih h5 (same_extra _)
  | values h1 h2 _ ih =>
    intro ns t' names e hm ht
    cases t' <;> simp [RType.withAttrs] at ht
    obtain ⟨-, rfl, -⟩ := ht
    obtain ⟨q, names', h5⟩ := means_map hm rfl h1 h2
    exact ih h5 (same_extra _)
  | nested h1 _ ih =>
    intro ns t' names e hm ht
    cases hm with
    | nested hh hk hm =>
      cases hk.type.symm.trans h1.type
      refine ih hm (e := e) ?_
      rw [ht]
      exact extra_extra _ _ _
    | logical hh hk hp => rw [h1.plain] at hk; cases hk
    | primitive hh hk _ => cases hk.type.symm.trans h1.type
    | reference hh hk _ => cases hk.type.symm.trans h1.type
    | fixed hh hk _ => cases hk.type.symm.trans h1.type
    | enum hh hk _ => cases hk.type.symm.trans h1.type
    | array hh hk _ => cases hk.type.symm.trans h1.type
    | map hh hk _ => cases hk.type.symm.trans h1.type
    | record hh hk _ => cases hk.type.symm.trans h1.type
    | union hh hk _ => cases hk.type.symm.trans h1.type

theorem extra_default (name : Option (String × String)) (d : Dict) :
    Dict.get? (Spec.extra name d) "default" = Dict.get? d "default" := by
  unfold Spec.extra
  cases name <;> cases h : Dict.get? d "default" <;> simp [Dict.get?_append, Dict.get?_cons]

theorem added_default (name : Option (String × String)) (d : Dict) :
    Dict.get? (added name d) "default" = Dict.get? d "default" := by
  unfold added
  rw [Dict.get?_append, extra_default]
  cases Dict.get? d "doc" <;> simp [Dict.get?_cons]

theorem added_keys (name : Option (String × String)) (d : Dict) :
    (Dict.keys (added name d)).Nodup ∧ ∀ k ∈ Dict.keys (added name d), k ∈ ["doc", "name", "default"] := by
  unfold added Spec.extra
  cases name <;> cases Dict.get? d "default" <;> cases Dict.get? d "doc" <;> simp [Dict.keys]

theorem means_attrs {d : Dict} {t : RType} {names : List String} (h : Means ns (.dict d) t names) :
    ((∀ d', ¬ HasType d (.dict d')) → t.attrs.doc = Dict.getD d "doc" .none) ∧
    (∀ v, Dict.get? d "default" = some v → Dict.get? t.attrs.extra "default" = some v) := by
  have key : ∀ name, (attrs name d).doc = Dict.getD d "doc" .none ∧
      ∀ v, Dict.get? d "default" = some v → Dict.get? (attrs name d).extra "default" = some v :=
    fun name => ⟨rfl, fun v hv => by rw [← hv]; exact extra_default _ _⟩
  cases h with
  | primitive hh hk hp => rw [(primitive_eq hp).2]; exact ⟨fun _ => (key _).1, (key _).2⟩
  | nested hh hk hm =>
    rename_i name q d' t
    refine ⟨fun hn => absurd hk (hn _), fun v hv => ?_⟩
    have : (t.withAttrs { t.attrs with extra := Dict.update t.attrs.extra (added name d) }).attrs.extra =
      Dict.update t.attrs.extra (added name d) := by cases t <;> rfl
    rw [this, get?_update _ _ _ (added_keys _ _).1, added_default, hv]
    rfl
  | logical hh hk hp =>
    cases hp <;> refine ⟨fun _ => rfl, fun v hv => ?_⟩ <;>
      simp [RType.attrs, Spec.logical, Dict.get?_cons, extra_default, hv]
  | _ => exact ⟨fun _ => rfl, (key _).2⟩

/-- **C95** (partial): the description of a schema that is accepted is kept, at every depth, unless its
`type` is a dictionary, and so is the default of every field of every record.

Missing: the description of fields whose type is a dictionary (`C95_doc_refuted`). -/
theorem C95_documented_partial {v : PyVal} {t' : RType} {fs : List RType} {a : Attrs} {names : List String} {reg' : Registry}
    (h : Means ns v (.struct fs a) names) (hr : toRecap v ns reg = .ok (t', reg')) :
    (∀ d u, At v t' d u → (∀ d', ¬ HasType d (.dict d')) → u.attrs.doc = Dict.getD d "doc" .none) ∧
    ∀ d u x, FieldAt v t' d u → Dict.get? d "default" = some x → Dict.get? u.attrs.extra "default" = some x := by
  obtain ⟨rfl, -⟩ := C94_meaning h hr
  constructor
  · intro d u hat hn
    obtain ⟨ns', u', names', e', hm, rfl⟩ := means_at hat h (same_extra _)
    rw [← (means_attrs hm).1 hn]
    cases u' <;> rfl
  · rintro d u x ⟨r, vs, fs', a', i, hat, h1, h2, h3, h4⟩ hx
    obtain ⟨ns', u', names', e', hm, he⟩ := means_at hat h (same_extra _)
    cases u' <;> simp [RType.withAttrs] at he
    obtain ⟨rfl, -⟩ := he
    obtain ⟨q, _, h5⟩ := means_record hm rfl h1 h2
    obtain ⟨_, h5⟩ := meansAll_get h5 h3 h4
    exact (means_attrs h5).2 x hx

/-- A field with a description whose type is a dictionary. -/
def documented : PyVal :=
  .dict [("type", .str "record"), ("name", .str "R"), ("fields", .list [
    .dict [("name", .str "c"), ("doc", .str "A color."),
      ("type", .dict [("type", .str "enum"), ("name", .str "Color"), ("symbols", .list [.str "RED"])])]])]

/-- **C95** refuted: the description of a field whose type is a dictionary is no description of what is
read, but one of the other attributes. -/
theorem C95_doc_refuted : ∃ f a reg', toRecap documented (some "app") newRegistry = .ok (.struct [f] a, reg') ∧
    f.attrs.doc = .none ∧ Dict.get? f.attrs.extra "doc" = some (.str "A color.") :=
  ⟨_, _, _, rfl, rfl, rfl⟩

/-- C95 of `order`. -/
example : ∃ reg', toRecap (.dict order) .none newRegistry = .ok (orderType, reg') ∧
    ∃ u, FieldAt (.dict order) orderType [("name", .str "id"), ("type", .str "long"), ("doc", .str "A number.")] u :=
  ⟨_, rfl, _, _, _, _, _, 0, .here, rfl, rfl, rfl, rfl⟩

/-! ## C96 -/

/-- A reference to a name in the registry of the converter, with the attributes of a field. -/
def Link (t : RType) : Prop :=
  ∀ r a, t = .proxy r a → r = .none ∧ (∃ s, a.alias = .str s) ∧ (Dict.keys a.extra).Nodup ∧
    ∀ k ∈ Dict.keys a.extra, k ∈ ["doc", "name", "default"]

theorem extra_keys (name : Option (String × String)) (d : Dict) :
    (Dict.keys (Spec.extra name d)).Nodup ∧ ∀ k ∈ Dict.keys (Spec.extra name d), k ∈ ["doc", "name", "default"] := by
  unfold Spec.extra
  cases name <;> cases Dict.get? d "default" <;> simp [Dict.keys]

theorem keys_update (e d : Dict) : (∀ k ∈ Dict.keys (Dict.update d e), k ∈ Dict.keys d ∨ k ∈ Dict.keys e) ∧
    ((Dict.keys d).Nodup → (Dict.keys (Dict.update d e)).Nodup) := by
  induction e generalizing d with
  | nil => exact ⟨fun k hk => .inl hk, fun h => h⟩
  | cons kv e ih =>
    obtain ⟨k', v⟩ := kv
    rw [Dict.update_cons]
    obtain ⟨h1, h2⟩ := ih (Dict.set d k' v)
    refine ⟨fun k hk => ?_, fun hn => h2 (Dict.nodup_keys_set _ _ hn)⟩
    rcases h1 k hk with h | h
    · rw [Dict.keys_set] at h
      split at h
      · exact .inl h
      · rcases List.mem_append.mp h with h | h
        · exact .inl h
        · exact .inr (by simp [Dict.keys] at h ⊢; exact .inl h)
    · exact .inr (by simp only [Dict.keys, List.map_cons] at h ⊢; exact List.mem_cons_of_mem _ h)

theorem means_links {v : PyVal} {t : RType} {names : List String} (h : Means ns v t names) :
    ∀ u, Recap.Spec.Sub u t → Link u := by
  have leaf : ∀ {t : RType}, (∀ u, Recap.Spec.Sub u t → u = t) → (∀ r a, t ≠ .proxy r a) → ∀ u, Recap.Spec.Sub u t → Link u := by
    intro t h1 h2 u hu r a he
    exact absurd (h1 u hu ▸ he) (h2 r a)
  induction h using Means.rec (motive_2 := fun ns vs ts names _ => ∀ t ∈ ts, ∀ u, Recap.Spec.Sub u t → Link u) with
  | primitiveName hp => cases hp <;> exact leaf (by intro u hu; cases hu; rfl) (by simp)
  | primitive hh hk hp => cases hp <;> exact leaf (by intro u hu; cases hu; rfl) (by simp)
  | logical hh hk hp => cases hp <;> exact leaf (by intro u hu; cases hu; rfl) (by simp)
  | fixed => exact leaf (by intro u hu; cases hu; rfl) (by simp)
  | enum => exact leaf (by intro u hu; cases hu; rfl) (by simp)
  | referenceName =>
    intro u hu r a he
    cases hu; cases he
    exact ⟨rfl, ⟨_, rfl⟩, by simp [Dict.keys], by simp [Dict.keys]⟩
  | reference =>
    intro u hu r a he
    cases hu; cases he
    exact ⟨rfl, ⟨_, rfl⟩, extra_keys _ _⟩
  | array _ _ _ _ ih =>
    intro u hu
    cases hu with
    | refl => intro r a he; cases he
    | list h => exact ih u h
  | map _ _ _ _ ih =>
    intro u hu
    cases hu with
    | refl => intro r a he; cases he
    | key h => cases h; intro r a he; cases he
    | value h => exact ih u h
  | record _ _ _ _ ih =>
    intro u hu
    cases hu with
    | refl => intro r a he; cases he
    | field h1 h2 => exact ih _ h1 u h2
  | union _ _ _ ih =>
    intro u hu
    cases hu with
    | refl => intro r a he; cases he
    | member h1 h2 => exact ih _ h1 u h2
  | nested _ _ _ ih =>
    rename_i ns d name q d' t names _ _ _
    intro u hu
    by_cases hp : ∃ r a, t = .proxy r a
    · obtain ⟨r, a, rfl⟩ := hp
      obtain ⟨rfl, h2, h3, h4⟩ := ih _ .refl r a rfl
      cases hu
      intro r a he
      cases he
      exact ⟨rfl, h2, (keys_update _ _).2 h3, fun k hk => ((keys_update _ _).1 k hk).elim (h4 k) ((added_keys _ _).2 k)⟩
    · by_cases hu' : Recap.Spec.Sub u t
      · exact ih u hu'
      · have : u = t.withAttrs { t.attrs with extra := Dict.update t.attrs.extra (added name d) } := by
          cases t <;> first | (exact (hp ⟨_, _, rfl⟩).elim) | skip
          all_goals
            cases hu <;> first | rfl | skip
          · exact (hu' (.list ‹_›)).elim
          · exact (hu' (.key ‹_›)).elim
          · exact (hu' (.value ‹_›)).elim
          · exact (hu' (.field ‹_› ‹_›)).elim
          · exact (hu' (.member ‹_› ‹_›)).elim
        intro r a he
        rw [this] at he
        cases t <;> simp [RType.withAttrs] at he
        exact (hp ⟨_, _, rfl⟩).elim
  | nil => simp at *
  | cons _ _ ih1 ih2 =>
    rename_i t ht u hu
    revert u
    rcases List.mem_cons.mp ht with rfl | h
    · exact ih1
    · exact ih2 _ h

theorem ordinary (k : String) (h : k ∈ ["doc", "name", "default"]) : Recap.Spec.OrdinaryKey k := by
  simp only [List.mem_cons, List.not_mem_nil, or_false] at h
  rcases h with rfl | rfl | rfl <;> exact ⟨by decide, by decide⟩

/-- **C96**: every reference in what is read of an accepted schema can be resolved if and only if it is to
one of the names that the schema gives or that the converter knew before; otherwise resolving it is a
`TypeError`. -/
theorem C96_references {v : PyVal} {t' : RType} {fs : List RType} {a : Attrs} {names : List String} {reg' : Registry}
    (h : Means ns v (.struct fs a) names) (hr : toRecap v ns reg = .ok (t', reg')) {r : Option (List (String × RType))}
    {b : Attrs} (hp : Recap.Spec.Sub (.proxy r b) t') :
    ∃ s, b.alias = .str s ∧
      (s ∈ Recap.Spec.names reg ∨ s ∈ names → ∃ u, resolve reg' r b = .ok u) ∧
      (¬ (s ∈ Recap.Spec.names reg ∨ s ∈ names) → resolve reg' r b = .error .typeError) := by
  obtain ⟨rfl, hn⟩ := C94_meaning h hr
  obtain ⟨rfl, ⟨s, hs⟩, h3, h4⟩ := means_links h _ hp r b rfl
  refine ⟨s, hs, fun hm => ?_, fun hm => ?_⟩
  · have hm : s ∈ Recap.Spec.names reg' := by rw [hn]; simpa using hm
    obtain ⟨u, hu⟩ := Option.isSome_iff_exists.mp ((find?_isSome_iff reg' s).mpr hm)
    obtain ⟨w, hw, -⟩ := applyOverrides_spec b.extra (u.deepcopy reg') ⟨h3, fun kv hkv =>
      ordinary _ (h4 kv.1 (List.mem_map_of_mem hkv))⟩
    exact ⟨w, by simp [resolve, Registry.fromAlias, hs, hu, bind, Except.bind, hw]⟩
  · have hm : s ∉ Recap.Spec.names reg' := by rw [hn]; simpa using hm
    have : Registry.find? reg' s = .none := by
      rw [← Option.not_isSome_iff_eq_none]
      exact fun hx => hm ((find?_isSome_iff reg' s).mp hx)
    simp [resolve, Registry.fromAlias, hs, this, bind, Except.bind]

/-- C96 of `order`. -/
example : ∃ reg', toRecap (.dict order) .none newRegistry = .ok (orderType, reg') ∧
    ∃ u, resolve reg' .none { alias := .str "shop.Order" } = .ok u := by
  obtain ⟨t, reg', h⟩ := (C62_accepted_partial (reg := newRegistry) means_order).mpr ⟨by decide, by decide +kernel⟩
  obtain ⟨rfl, -⟩ := C94_meaning means_order h
  obtain ⟨s, hs, h1, -⟩ := C96_references means_order h (r := .none) (b := { alias := .str "shop.Order" })
    (.field (List.mem_cons_of_mem _ (List.mem_cons_of_mem _ (List.mem_cons_self ..)))
      (.member (List.mem_cons_of_mem _ (List.mem_cons_self ..)) .refl))
  cases hs
  exact ⟨reg', h, h1 (.inr (by decide))⟩

/-! ## C97 -/

/-- **C97** (partial): what is read of a schema with names that are new after the first schema does not
depend on whether the first schema was read before.

Missing: schemas with names in common (`C97_twice_refuted`). -/
theorem C97_independent_partial {v₁ v₂ : PyVal} {ns₁ ns₂ : Option String} {fs₁ fs₂ : List RType} {a₁ a₂ : Attrs}
    {names₁ names₂ : List String} {t₁ t₂ : RType} {reg₁ reg₂ : Registry}
    (h₁ : Means ns₁ v₁ (.struct fs₁ a₁) names₁) (h₂ : Means ns₂ v₂ (.struct fs₂ a₂) names₂)
    (hd : ∀ s ∈ names₂, s ∉ names₁)
    (hr₁ : toRecap v₁ ns₁ reg = .ok (t₁, reg₁)) (hr₂ : toRecap v₂ ns₂ reg = .ok (t₂, reg₂)) :
    ∃ reg₃, toRecap v₂ ns₂ reg₁ = .ok (t₂, reg₃) := by
  obtain ⟨rfl, hn1⟩ := C94_meaning h₁ hr₁
  obtain ⟨rfl, hn2⟩ := C94_meaning h₂ hr₂
  obtain ⟨h3, h4⟩ := (C62_accepted_partial h₂).mp ⟨_, _, hr₂⟩
  obtain ⟨t, reg3, h5⟩ := (C62_accepted_partial (reg := reg₁) h₂).mpr
    ⟨h3, fun s hs => ⟨(h4 s hs).1, by rw [hn1]; simpa using ⟨(h4 s hs).2, hd s hs⟩⟩⟩
  obtain ⟨rfl, -⟩ := C94_meaning h₂ h5
  exact ⟨reg3, h5⟩

/-- **C97** refuted: a converter cannot read a schema that gives names a second time, although it could
read it before. -/
theorem C97_twice_refuted {v : PyVal} {t : RType} {fs : List RType} {a : Attrs} {names : List String} {reg' : Registry}
    (h : Means ns v (.struct fs a) names) (hne : names ≠ []) (hr : toRecap v ns reg = .ok (t, reg')) :
    ¬ ∃ t' reg'', toRecap v ns reg' = .ok (t', reg'') := by
  intro hx
  obtain ⟨-, h2⟩ := (C62_accepted_partial h).mp hx
  obtain ⟨-, hn⟩ := C94_meaning h hr
  obtain ⟨s, ss, rfl⟩ := List.exists_cons_of_ne_nil hne
  exact (h2 s (by simp)).2 (by rw [hn]; simp)

/-- C97 of `order`. -/
example : ∃ reg', toRecap (.dict order) .none newRegistry = .ok (orderType, reg') ∧
    ¬ ∃ t' reg'', toRecap (.dict order) .none reg' = .ok (t', reg'') := by
  obtain ⟨t, reg', h⟩ := (C62_accepted_partial (reg := newRegistry) means_order).mpr ⟨by decide, by decide +kernel⟩
  obtain ⟨rfl, -⟩ := C94_meaning means_order h
  exact ⟨reg', h, C97_twice_refuted means_order (by simp) h⟩

/-! ## C98 -/

/-- **C98** refuted: a record with a field of any logical type that recap does not know is refused. -/
theorem C98_logical_refuted (l : String) (hl : l ∉ ["", "decimal", "uuid", "date", "time-millis", "time-micros",
    "timestamp-millis", "timestamp-micros", "duration"]) :
    toRecap (.dict [("type", .str "record"), ("name", .str "R"), ("fields", .list [
      .dict [("name", .str "x"), ("type", .str "long"), ("logicalType", .str l)]])]) ns reg = .error .valueError := by
  simp only [List.mem_cons, List.not_mem_nil, or_false, not_or] at hl
  obtain ⟨h0, h1, h2, h3, h4, h5, h6, h7, h8⟩ := hl
  rw [toRecap, parse]
  cases ns <;>
  simp [PyVal.size, PyVal.sizePairs, PyVal.sizeList, parseF, parseDict, header, namespaceOf, Dict.get?, copied,
    Dict.getD, PyVal.truthy, parseType, bind, Except.bind, pure, Except.pure, primitive, parseComplex, PyVal.iter,
    parseAll, fullName, hasDot, parseLogical, *]

/-- For example, the local timestamps of Avro 1.10. -/
example : toRecap (.dict [("type", .str "record"), ("name", .str "R"), ("fields", .list [
    .dict [("name", .str "x"), ("type", .str "long"), ("logicalType", .str "local-timestamp-millis")]])])
    (some "app") newRegistry = .error .valueError := C98_logical_refuted _ (by decide)

end Recap.Avro
