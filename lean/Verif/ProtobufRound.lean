import Verif.ProtobufRoundSpec
import Verif.ProtobufWriteThms
import Verif.ProtobufReadThms

/-!
# Round trips through Protobuf
-/

set_option autoImplicit false

namespace Recap.Protobuf

open Recap.Protobuf.Spec Recap.Spec

/-! ## Files with one message of scalar fields -/

/-- A field with a type that is part of Protobuf, or a oneof of such fields. -/
def Basic (e : Elem) : Prop :=
  (∃ name k s card, e = .field name k s card ∧ (Spec.scalar s).isSome) ∨
  ∃ name es, e = .oneof name es ∧ ∀ x ∈ es, ∃ m k s card, x = .field m k s card ∧ (Spec.scalar s).isSome

theorem basic_inner {es : List Elem} (h : ∀ e ∈ es, Basic e) : innerAll es = [] := by
  induction es with
  | nil => rfl
  | cons e es ih =>
    rw [innerAll, ih (fun x hx => h x (by simp [hx]))]
    rcases h e (by simp) with ⟨_, _, _, _, rfl, -⟩ | ⟨_, _, rfl, -⟩ <;> rfl

theorem field_types {es : List Elem} (h : ∀ x ∈ es, ∃ m k s card, x = .field m k s card ∧ (Spec.scalar s).isSome) :
    ∀ s ∈ typesAll es, (Spec.scalar s).isSome := by
  induction es with
  | nil => simp [typesAll]
  | cons e es ih =>
    intro s hs
    rw [typesAll, List.mem_append] at hs
    rcases hs with hs | hs
    · obtain ⟨_, _, _, _, rfl, h1⟩ := h e (by simp)
      simp [types] at hs
      subst hs
      exact h1
    · exact ih (fun x hx => h x (by simp [hx])) s hs

theorem basic_types {es : List Elem} (h : ∀ e ∈ es, Basic e) : ∀ s ∈ typesAll es, (Spec.scalar s).isSome := by
  induction es with
  | nil => simp [typesAll]
  | cons e es ih =>
    intro s hs
    rw [typesAll, List.mem_append] at hs
    rcases hs with hs | hs
    · rcases h e (by simp) with ⟨_, _, _, _, rfl, h1⟩ | ⟨_, _, rfl, h1⟩
      · simp [types] at hs
        subst hs
        exact h1
      · rw [types] at hs
        exact field_types h1 s hs
    · exact ih (fun x hx => h x (by simp [hx])) s hs

theorem toRecap_basic {ns₀ p n : String} {es : List Elem} (hq : FullyQualified (p ++ "." ++ n))
    (h : ∀ e ∈ es, Basic e) : ∃ fs c D, toRecap (newConverter ns₀) [.package p, .message n es] =
      .ok (.struct fs { alias := .str (p ++ "." ++ n) }, c) ∧ Fields D p es fs := by
  have hi : innerAll [.package p, .message n es] = [.message n es] := by
    simp [innerAll, inner, basic_inner h]
  obtain ⟨t, c, h1⟩ : ∃ t c, toRecap (newConverter ns₀) [.package p, .message n es] = .ok (t, c) := by
    refine C66_order_partial (ns := p) (root := n) (es := es) rfl rfl ?_ ?_ ?_ ?_ ?_
    · rw [hi]; simp [Spec.nameOf]
    · rw [hi]; simp [fulls, Spec.nameOf, hq]
    · rw [hi]
      intro n' xs name k key value h2 h3
      simp at h2
      obtain ⟨rfl, rfl⟩ := h2
      rcases h _ h3 with ⟨_, _, _, _, h4, -⟩ | ⟨_, _, h4, -⟩ <;> cases h4
    · intro s hs hn
      have := basic_types h s hs
      rw [hn] at this
      cases this
    · rw [hi]
      intro l n' xs r h2 h3
      cases l with
      | nil => simp at h2; exact absurd h2.1.1.symm h3
      | cons a l => simp at h2
  obtain ⟨name, es', fs, h2, rfl, h3⟩ := C99_meaning (.new (ns := ns₀)) (ns := p) rfl h1
  cases h2
  exact ⟨fs, c, _, h1, h3⟩

/-! ## Types with one struct -/

theorem fromRecap_flat {fs : List RType} {a : Attrs} {p n : String} {es : List Elem} (ha : Alias a p n)
    (h : gatherFields 1 fs [] = .ok (es, [])) : fromRecap (.struct fs a) = .ok [.package p, .message n es] := by
  have hg : gather (.struct fs a) [] = .ok [(p, [.message n es])] := by
    simp only [gather, structName_ok.mpr ha, h, bind, Except.bind, pure, Except.pure]
    rfl
  have hne : (p ++ "." ++ n) ≠ p := by
    intro h
    have := congrArg String.length h
    rw [String.length_append, String.length_append, show ".".length = 1 from rfl] at this
    omega
  unfold fromRecap
  have h0 : ((RType.struct fs a).attrs.alias = .none) ↔ False := by
    rw [show (RType.struct fs a).attrs = a from rfl, ha.1]
    simp
  rw [if_neg (by rw [h0]; exact id)]
  simp only [hg, bind, Except.bind, List.map, least]
  have h1 : ([(p, [Elem.message n es])] : Store).all (fun q => p.toList.isPrefixOf q.1.toList) = true := by simp
  rw [if_pos h1]
  have h2 : ∀ m calls, construct [(p, [.message n es])] m calls (p ++ "." ++ n) = .ok [] := by
    intro m calls
    unfold construct
    have : declared [(p, [Elem.message n es])] (p ++ "." ++ n) = .none := by
      simp [declared, Ne.symm hne]
    rw [this]
  unfold construct
  simp only [declared, if_true, List.mapM_cons, List.mapM_nil, h2, bind, Except.bind, pure, Except.pure]
  simp [times]

/-! ## From a file to a file -/

theorem number_reads {D : Decls} {ns s : String} {x : Dict} {t : RType} (hs : Number s) (h : Reads D ns s x t) :
    ∃ t₀ s', Spec.scalar s = some t₀ ∧ t = t₀.withAttrs { extra := Dict.update [] x } ∧ Spec.scalar s' = some t₀ ∧
      t.isNull = false ∧ (∀ st, gather t st = .ok st) ∧
      ∀ k, toField k t = .ok (.field (nameOf { extra := Dict.update [] x } k) k s' .none) := by
  simp only [Number, List.mem_cons, List.not_mem_nil, or_false] at hs
  rcases hs with rfl | rfl | rfl | rfl | rfl | rfl | rfl | rfl | rfl | rfl | rfl | rfl | rfl <;>
    cases h with
    | scalar h =>
      first
      | exact ⟨.int (.int 32) (.bool true) {}, "int32", by decide +kernel, by cases h; rfl, by decide +kernel, by cases h; rfl, fun st => by cases h; rfl, fun k => by cases h; rfl⟩
      | exact ⟨.int (.int 64) (.bool true) {}, "int64", by decide +kernel, by cases h; rfl, by decide +kernel, by cases h; rfl, fun st => by cases h; rfl, fun k => by cases h; rfl⟩
      | exact ⟨.int (.int 32) (.bool false) {}, "uint32", by decide +kernel, by cases h; rfl, by decide +kernel, by cases h; rfl, fun st => by cases h; rfl, fun k => by cases h; rfl⟩
      | exact ⟨.int (.int 64) (.bool false) {}, "uint64", by decide +kernel, by cases h; rfl, by decide +kernel, by cases h; rfl, fun st => by cases h; rfl, fun k => by cases h; rfl⟩
      | exact ⟨.float (.int 32) {}, "float", by decide +kernel, by cases h; rfl, by decide +kernel, by cases h; rfl, fun st => by cases h; rfl, fun k => by cases h; rfl⟩
      | exact ⟨.float (.int 64) {}, "double", by decide +kernel, by cases h; rfl, by decide +kernel, by cases h; rfl, fun st => by cases h; rfl, fun k => by cases h; rfl⟩
      | exact ⟨.bool {}, "bool", by decide +kernel, by cases h; rfl, by decide +kernel, by cases h; rfl, fun st => by cases h; rfl, fun k => by cases h; rfl⟩
    | reference h => exact absurd h (by decide +kernel)
    | message h => exact absurd h (by decide +kernel)
    | enum h => exact absurd h (by decide +kernel)

theorem update_name (y : PyVal) : Dict.update [] [("name", y)] = [("name", y)] := rfl

theorem number_field {D : Decls} {ns s : String} {y : PyVal} {t : RType} (hs : Number s)
    (h : Reads D ns s [("name", y)] t) : t.isNull = false ∧ (∀ st, gather t st = .ok st) ∧
      ∀ k, ∃ s', toField k t = .ok (.field y k s' .none) ∧ Spec.scalar s = Spec.scalar s' := by
  obtain ⟨t₀, s', h1, -, h2, h3, h4, h5⟩ := number_reads hs h
  exact ⟨h3, h4, fun k => ⟨s', h5 k, by rw [h1, h2]⟩⟩

theorem members_write {D : Decls} {ns : String} {es : List Elem} (he : ∀ x ∈ es, NumberField x) :
    ∀ {ts : List RType}, Members D ns es ts → (∀ st, gatherAll ts st = .ok st) ∧
      ∀ k, ∃ es', toMembers k ts = .ok es' ∧ Each SameField es es' := by
  induction es with
  | nil =>
    intro ts h
    cases h
    exact ⟨fun st => rfl, fun k => ⟨[], rfl, .nil⟩⟩
  | cons e es ih =>
    intro ts h
    obtain ⟨name, k, s, card, rfl, hs⟩ := he e (by simp)
    cases h with
    | skip h => exact absurd rfl (h _ _ _ _)
    | @field _ _ _ _ _ t _ ts h1 h2 =>
      obtain ⟨h3, h4, h5⟩ := number_field hs h1
      obtain ⟨h6, h7⟩ := ih (fun x hx => he x (by simp [hx])) h2
      refine ⟨fun st => ?_, fun k => ?_⟩
      · simp only [gatherAll, h4, bind, Except.bind, h6]
      · obtain ⟨s', h8, h9⟩ := h5 k
        obtain ⟨es', h10, h11⟩ := h7 (k + 1)
        refine ⟨.field name k s' .none :: es', ?_, .cons (.mk h9) h11⟩
        simp only [toMembers, h3, h8, h10, bind, Except.bind, pure, Except.pure]
        rfl

theorem each_length {α β : Type} {R : α → β → Prop} {xs : List α} {ys : List β} (h : Each R xs ys) :
    xs.length = ys.length := by
  induction h with
  | nil => rfl
  | cons _ _ ih => simp [ih]

theorem simple_write {D : Decls} {ns : String} {e : Elem} {f : RType} (he : Simple e) (h : FieldReads D ns e f) :
    (∀ st, gather f st = .ok st) ∧ ∀ k, ∃ e', toField k f = .ok e' ∧ Same e e' := by
  rcases he with ⟨name, k, s, rfl, hs⟩ | ⟨name, es, rfl, hl, he⟩
  · cases h with
    | required h =>
      obtain ⟨h3, h4, h5⟩ := number_field hs h
      refine ⟨h4, fun k => ?_⟩
      obtain ⟨s', h8, h9⟩ := h5 k
      exact ⟨_, h8, .field (.mk h9)⟩
    | optional h => rcases h with h | h <;> cases h
    | null h => rcases h with h | h <;> cases h
  · cases h with
    | @oneof _ _ _ ts h =>
      obtain ⟨h1, h2⟩ := members_write he h
      refine ⟨fun st => ?_, fun k => ?_⟩
      · simp only [gather, gatherAll, bind, Except.bind, h1]
      · obtain ⟨es', h3, h4⟩ := h2 k
        have h5 := each_length h4
        refine ⟨.oneof name es', ?_, .oneof h4⟩
        have h6 : toMembers k (.null {} :: ts) = .ok es' := by
          rw [toMembers]
          exact h3
        simp only [toField, h6, bind, Except.bind]
        split
        · rename_i e _
          simp at h5
          omega
        · rfl

theorem fields_write {D : Decls} {ns : String} {es : List Elem} (he : ∀ e ∈ es, Simple e) :
    ∀ {fs : List RType}, Fields D ns es fs → ∀ k st, ∃ es', gatherFields k fs st = .ok (es', st) ∧ Each Same es es' := by
  induction es with
  | nil =>
    intro fs h k st
    cases h
    exact ⟨[], rfl, .nil⟩
  | cons e es ih =>
    intro fs h k st
    cases h with
    | skip h =>
      rcases he e (by simp) with ⟨_, _, _, rfl, -⟩ | ⟨_, _, rfl, -⟩ <;> cases h
    | field h1 h2 =>
      obtain ⟨h3, h4⟩ := simple_write (he e (by simp)) h1
      obtain ⟨e', h5, h6⟩ := h4 k
      obtain ⟨es', h7, h8⟩ := ih (fun x hx => he x (by simp [hx])) h2 (k + 1) st
      refine ⟨e' :: es', ?_, .cons h6 h8⟩
      simp only [gatherFields, h5, h3, h7, bind, Except.bind, pure, Except.pure]

theorem number_some {s : String} (h : Number s) : (Spec.scalar s).isSome := by
  revert s
  unfold Number
  decide +kernel

theorem simple_basic {e : Elem} (h : Simple e) : Basic e := by
  rcases h with ⟨name, k, s, rfl, hs⟩ | ⟨name, es, rfl, -, he⟩
  · exact .inl ⟨_, _, _, _, rfl, number_some hs⟩
  · refine .inr ⟨_, _, rfl, fun x hx => ?_⟩
    obtain ⟨m, k, s, card, rfl, hs⟩ := he x hx
    exact ⟨_, _, _, _, rfl, number_some hs⟩

/-! ## From a type to a type -/

theorem gather_writable {t : RType} (h : Writable t) (st : Store) : gather t st = .ok st := by
  cases t <;> first | rfl | exact h.elim

theorem gatherAll_writable {ts : List RType} (h : ∀ t ∈ members ts, Writable t ∧ ∃ y, fieldName t = some y) (st : Store) :
    gatherAll ts st = .ok st := by
  induction ts with
  | nil => rfl
  | cons t ts ih =>
    cases hn : t.isNull with
    | true =>
      have hm : members (t :: ts) = members ts := by simp [members, hn]
      rw [hm] at h
      cases t <;> simp [RType.isNull] at hn
      simp only [gatherAll, gather, bind, Except.bind, ih h]
    | false =>
      have hm : members (t :: ts) = t :: members ts := by simp [members, hn]
      rw [hm] at h
      simp only [gatherAll, gather_writable (h t (by simp)).1, bind, Except.bind, ih (fun u hu => h u (by simp [hu]))]

/-- What is written for a type that can be written, and what it is read as. -/
theorem writable_field {t : RType} (h : Writable t) : ∃ s v, (∀ k, toField k t = .ok (.field (nameOf t.attrs k) k s .none)) ∧
    Spec.scalar s = some v ∧ v.attrs = {} ∧ Wider t v ∧ t.isNull = false ∧ s ≠ "google.protobuf.NullValue" := by
  unfold Writable at h
  split at h
  · exact ⟨"bool", .bool {}, fun k => rfl, by decide +kernel, rfl, rfl, rfl, by decide⟩
  · rename_i b s a
    by_cases hb : b ≤ 32
    · cases s
      · exact ⟨"uint32", .int (.int 32) (.bool false) {}, fun k => by simp [toField, scalarOf, Avro.asInt, hb, bind, Except.bind, pure, Except.pure, RType.attrs],
          by decide +kernel, rfl, ⟨32, hb, rfl⟩, rfl, by decide⟩
      · exact ⟨"int32", .int (.int 32) (.bool true) {}, fun k => by simp [toField, scalarOf, Avro.asInt, hb, bind, Except.bind, pure, Except.pure, RType.attrs],
          by decide +kernel, rfl, ⟨32, hb, rfl⟩, rfl, by decide⟩
    · cases s
      · exact ⟨"uint64", .int (.int 64) (.bool false) {}, fun k => by simp [toField, scalarOf, Avro.asInt, hb, h, bind, Except.bind, pure, Except.pure, RType.attrs],
          by decide +kernel, rfl, ⟨64, h, rfl⟩, rfl, by decide⟩
      · exact ⟨"int64", .int (.int 64) (.bool true) {}, fun k => by simp [toField, scalarOf, Avro.asInt, hb, h, bind, Except.bind, pure, Except.pure, RType.attrs],
          by decide +kernel, rfl, ⟨64, h, rfl⟩, rfl, by decide⟩
  · rename_i b a
    by_cases hb : b ≤ 32
    · exact ⟨"float", .float (.int 32) {}, fun k => by simp [toField, scalarOf, Avro.asInt, hb, bind, Except.bind, pure, Except.pure, RType.attrs],
          by decide +kernel, rfl, ⟨32, hb, rfl⟩, rfl, by decide⟩
    · exact ⟨"double", .float (.int 64) {}, fun k => by simp [toField, scalarOf, Avro.asInt, hb, h, bind, Except.bind, pure, Except.pure, RType.attrs],
          by decide +kernel, rfl, ⟨64, h, rfl⟩, rfl, by decide⟩
  · rename_i b _ a
    have hb : b ≤ 2147483647 := by omega
    exact ⟨"string", .string (.int (2 ^ 31)) (.bool true) {}, fun k => by simp [toField, scalarOf, Avro.asInt, hb, bind, Except.bind, pure, Except.pure, RType.attrs],
          by decide +kernel, rfl, ⟨2 ^ 31, by omega, rfl⟩, rfl, by decide⟩
  · rename_i b _ a
    have hb : b ≤ 2147483647 := by omega
    exact ⟨"bytes", .bytes (.int (2 ^ 31)) (.bool true) {}, fun k => by simp [toField, scalarOf, Avro.asInt, hb, bind, Except.bind, pure, Except.pure, RType.attrs],
          by decide +kernel, rfl, ⟨2 ^ 31, by omega, rfl⟩, rfl, by decide⟩
  · exact h.elim

theorem nameOf_fieldName {t : RType} {x : PyVal} (h : fieldName t = some x) (k : Int) : nameOf t.attrs k = x := by
  unfold fieldName at h
  simp [nameOf, Dict.getD, h]

theorem reads_scalar {D : Decls} {ns s : String} {x : Dict} {t v : RType} (hs : Spec.scalar s = some v)
    (h : Reads D ns s x t) : t = v.withAttrs { v.attrs with extra := Dict.update v.attrs.extra x } := by
  cases h with
  | scalar h => rw [hs] at h; cases h; rfl
  | reference h => rw [hs] at h; cases h
  | message h => rw [hs] at h; cases h
  | enum h => rw [hs] at h; cases h

theorem withAttrs_none (v : RType) (h : v.attrs = {}) : v.withAttrs {} = v := by
  cases v <;> simp only [RType.attrs] at h <;> subst h <;> rfl

/-- The members of a union that can be written. -/
theorem members_back {ts : List RType} (ht : ∀ t ∈ members ts, Writable t ∧ ∃ y, fieldName t = some y) (k : Int) :
    ∃ es, toMembers k ts = .ok es ∧ (∀ x ∈ es, ∃ m k s card, x = .field m k s card ∧ (Spec.scalar s).isSome) ∧
      ∀ D ns vs, Members D ns es vs → Each MemberBack (members ts) vs := by
  induction ts generalizing k with
  | nil =>
    refine ⟨[], rfl, by simp, fun D ns vs h => ?_⟩
    cases h
    exact .nil
  | cons t ts ih =>
    cases hn : t.isNull with
    | true =>
      have hm : members (t :: ts) = members ts := by simp [members, hn]
      rw [hm] at ht ⊢
      obtain ⟨es, h1, h2⟩ := ih ht k
      exact ⟨es, by simp only [toMembers, hn, if_true]; exact h1, h2⟩
    | false =>
      have hm : members (t :: ts) = t :: members ts := by simp [members, hn]
      rw [hm] at ht ⊢
      obtain ⟨es, h1, h2, h3⟩ := ih (fun u hu => ht u (by simp [hu])) (k + 1)
      obtain ⟨hw, y, hy⟩ := ht t (by simp)
      obtain ⟨s, v, h4, h5, h6, h7, -, -⟩ := writable_field hw
      have h8 := h4 k
      rw [nameOf_fieldName hy] at h8
      refine ⟨.field y k s .none :: es, ?_, ?_, ?_⟩
      · simp only [toMembers, hn, h8, h1, bind, Except.bind, pure, Except.pure]
        rfl
      · intro x hx
        rcases List.mem_cons.mp hx with rfl | hx
        · exact ⟨_, _, _, _, rfl, by rw [h5]; rfl⟩
        · exact h2 x hx
      · intro D ns vs h
        cases h with
        | skip h => exact absurd rfl (h _ _ _ _)
        | field h9 h10 =>
          refine .cons ?_ (h3 _ _ _ h10)
          rw [reads_scalar h5 h9, h6, update_name]
          exact .mk hy h7

theorem field_back {f : RType} (hf : RoundField f) (k : Int) :
    ∃ e, toField k f = .ok e ∧ (∀ st, gather f st = .ok st) ∧ Basic e ∧ label e ≠ .none ∧
      ∀ D ns v, FieldReads D ns e v → Back f v := by
  obtain ⟨x, hx, hf⟩ := hf
  have value : ∀ {s : String} {v₀ t : RType} {card : Option Card} {D : Decls} {ns : String} {v : RType}, card = .none ∨ card = some .optional →
      s ≠ "google.protobuf.NullValue" → Spec.scalar s = some v₀ → v₀.attrs = {} → FieldReads D ns (.field x k s card) v →
      v = .union [.null {}, v₀] { extra := [("default", .none), ("name", x)] } := by
    intro s v₀ t card D ns v hc hs h1 h2 h
    cases h with
    | required => rcases hc with h | h <;> cases h
    | repeated => rcases hc with h | h <;> cases h
    | null => exact absurd rfl hs
    | optional _ _ h =>
      rw [reads_scalar h1 h, h2]
      show RType.union [.null {}, v₀.withAttrs {}] _ = _
      rw [withAttrs_none _ h2]
  rcases hf with hn | hw | ⟨ts, a, rfl, ⟨t, hm, hw, hy⟩ | ⟨hl, ht⟩⟩
  · cases f <;> simp [RType.isNull] at hn
    rename_i a
    refine ⟨.field x k "google.protobuf.NullValue" .none, ?_, fun st => rfl, .inl ⟨_, _, _, _, rfl, by decide +kernel⟩, by simp [label], ?_⟩
    · have := nameOf_fieldName hx k
      simp only [RType.attrs] at this
      simp only [toField, scalarOf, bind, Except.bind, pure, Except.pure, RType.attrs, this]
    · intro D ns v h
      cases h with
      | optional _ h => exact absurd rfl h
      | null => exact .null rfl hx
  · obtain ⟨s, v₀, h4, h5, h6, h7, -, h8⟩ := writable_field hw
    refine ⟨.field x k s .none, ?_, gather_writable hw, .inl ⟨_, _, _, _, rfl, by rw [h5]; rfl⟩, by simp [label], ?_⟩
    · rw [h4, nameOf_fieldName hx]
    · intro D ns v h
      rw [value (t := f) (.inl rfl) h8 h5 h6 h]
      exact .value hx h7
  · obtain ⟨s, v₀, h4, h5, h6, h7, -, h8⟩ := writable_field hw
    have hmem : ∀ u ∈ members ts, Writable u ∧ ∃ y, fieldName u = some y := by
      rw [hm]; intro u hu; simp at hu; subst hu; exact ⟨hw, x, hy⟩
    have hto : ∀ {ts : List RType}, members ts = [t] → toMembers k ts = .ok [.field x k s .none] := by
      intro ts hm
      induction ts with
      | nil => cases hm
      | cons u ts ih =>
        cases hn : u.isNull with
        | true =>
          simp only [toMembers, hn, if_true]
          exact ih (by simpa [members, hn] using hm)
        | false =>
          have hm' : u = t ∧ members ts = [] := by simpa [members, hn] using hm
          obtain ⟨rfl, hm'⟩ := hm'
          have hnil : ∀ {ts : List RType} (n : Int), members ts = [] → toMembers n ts = .ok [] := by
            intro ts n hm
            induction ts with
            | nil => rfl
            | cons u ts ih =>
              cases hn : u.isNull with
              | true => simp only [toMembers, hn, if_true]; exact ih (by simpa [members, hn] using hm)
              | false => simp [members, hn] at hm
          have := h4 k
          rw [nameOf_fieldName hy] at this
          simp only [toMembers, hn, this, hnil _ hm', bind, Except.bind, pure, Except.pure]
          rfl
    refine ⟨.field x k s (some .optional), ?_, ?_, .inl ⟨_, _, _, _, rfl, by rw [h5]; rfl⟩, by simp [label], ?_⟩
    · simp only [toField, hto hm, bind, Except.bind, setCard]
    · exact gatherAll_writable hmem
    · intro D ns v h
      rw [value (t := t) (.inr rfl) h8 h5 h6 h]
      exact .optional hx hm h7
  · obtain ⟨es, h1, h2, h3⟩ := members_back ht k
    refine ⟨.oneof x es, ?_, ?_, .inr ⟨_, _, rfl, h2⟩, by simp [label], ?_⟩
    · have h4 := toMembers_length h1
      have := nameOf_fieldName hx k
      simp only [RType.attrs] at this
      simp only [toField, h1, bind, Except.bind]
      split
      · simp at h4; omega
      · rw [this]; rfl
    · exact gatherAll_writable ht
    · intro D ns v h
      cases h with
      | oneof h => exact .choice hx (h3 _ _ _ h)

theorem fields_back {fs : List RType} (hf : ∀ f ∈ fs, RoundField f) (k : Int) (st : Store) :
    ∃ es, gatherFields k fs st = .ok (es, st) ∧ (∀ e ∈ es, Basic e) ∧
      ∀ D ns vs, Fields D ns es vs → Each Back fs vs := by
  induction fs generalizing k with
  | nil =>
    refine ⟨[], rfl, by simp, fun D ns vs h => ?_⟩
    cases h
    exact .nil
  | cons f fs ih =>
    obtain ⟨e, h1, h2, h3, h4, h5⟩ := field_back (hf f (by simp)) k
    obtain ⟨es, h6, h7, h8⟩ := ih (fun g hg => hf g (by simp [hg])) (k + 1)
    refine ⟨e :: es, ?_, ?_, ?_⟩
    · simp only [gatherFields, h1, h2, h6, bind, Except.bind, pure, Except.pure]
    · intro x hx
      rcases List.mem_cons.mp hx with rfl | hx
      · exact h3
      · exact h7 x hx
    · intro D ns vs h
      cases h with
      | skip h => exact absurd h h4
      | field h9 h10 => exact .cons (h5 _ _ _ h9) (h8 _ _ _ h10)

end Recap.Protobuf
