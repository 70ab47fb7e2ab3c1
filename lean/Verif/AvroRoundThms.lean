import Verif.AvroRound

/-!
# C61: writing and reading Avro schemas
-/

set_option autoImplicit false

namespace Recap.Avro

open Recap.Avro.Spec

variable {live : Registry}

/-- **C61** (partial): a struct of the types that Avro can express is written, and what is written is
read as the same struct, by a converter that does not know its aliases yet.

Missing: fixed-length bytes, durations and the other types that come back changed
(`C61_fixed_refuted`, `C61_lossy_refuted`, `C61_duration_refuted`), and aliases that are not those of
the given namespace (`C61_namespace_refuted`): these are false of the code. -/
theorem C61_round_trip_partial {ns : String} (hns : ns ≠ "") {fs : List RType} {a : Attrs}
    (h : Native ns (.struct fs a)) {reg : Registry} (hn : NewAliases reg (.struct fs a)) :
    ∃ d reg', fromRecap live (.struct fs a) = .ok d ∧
      toRecap (.dict d) (some ns) reg = .ok (.struct fs a, reg') := by
  obtain ⟨v, h1, h2⟩ := round_native (live := live) (l := weightReg 0 live) hns h (Nat.le_refl _)
  obtain ⟨reg', h3, -⟩ := h2 v.size reg (Nat.le_refl _) hn
  have hv : ∃ d, v = .dict d := by
    have : 0 < weight (weightReg 0 live) (.struct fs a) := by simp only [weight]; omega
    obtain ⟨n, hw⟩ : ∃ k, weight (weightReg 0 live) (.struct fs a) = k + 1 := ⟨weight (weightReg 0 live) (.struct fs a) - 1, by omega⟩
    rw [hw, convertF] at h1
    obtain ⟨s, hs, h1⟩ := ok_bind h1
    split at h1
    · obtain ⟨d, hd, -⟩ := ok_bind h1
      simp [logicalSchema] at hd
    · obtain ⟨vs, -, h1⟩ := ok_bind h1
      cases h1
      rw [update_describe hs (by simp [Dict.keys]) (by simp [Dict.keys])]
      rcases shorten_cases (s ++ [("type", .str "record"), ("fields", .list (vs.map fieldSchema))]) with e | ⟨x, e, -⟩
      · exact ⟨_, e⟩
      · have := congrArg List.length e
        simp at this
  obtain ⟨d, rfl⟩ := hv
  refine ⟨d, reg', ?_, ?_⟩
  · rw [fromRecap, h1]; rfl
  · rw [toRecap, parse, h3]; rfl

/-- A tree with a description, a decimal, an optional time, a map of enums and a reference to itself. -/
def tree : RType :=
  .struct [
    .bytes (.int 9223372036854775807) (.bool false)
      { logical := .str "build.recap.Decimal"
        extra := [("precision", .int 9), ("scale", .int 2), ("name", .str "price")] },
    .union [.null {}, .int (.int 64) (.bool true)
        { logical := .str "build.recap.Timestamp", extra := [("unit", .str "microsecond")] }]
      { alias := .str "app.at", extra := [("name", .str "at"), ("default", .none)] },
    .map (.string (.int 9223372036854775807) (.bool true) {})
      (.enum (.list [.str "A", .str "B"]) { alias := .str "app.Kind", extra := [("name", .str "Kind")] })
      { alias := .str "app.kinds", extra := [("name", .str "kinds")] },
    .list (.proxy .none { alias := .str "app.Tree" }) .none (.bool true)
      { alias := .str "app.children", extra := [("name", .str "children")] }]
    { alias := .str "app.Tree", doc := .str "A tree.", extra := [("name", .str "Tree")] }

theorem native_tree : Native "app" tree := by
  have name : ∀ n : String, n ≠ "" → '.' ∉ n.toList → ∀ dflt, Info.Proper { name := some n, default := dflt } :=
    fun n h1 h2 _ => ⟨Or.inl rfl, fun m hm => by cases hm; exact ⟨h1, h2⟩⟩
  have none : Info.Proper {} := ⟨Or.inl rfl, fun m hm => by cases hm⟩
  refine .record { doc := .str "A tree.", name := some "Tree" } ⟨Or.inr rfl, fun m hm => by cases hm; decide⟩ ?_
  intro f hf
  simp only [List.mem_cons, List.not_mem_nil, or_false] at hf
  rcases hf with rfl | rfl | rfl | rfl
  · exact .decimal { name := some "price" } 9 (.int 2) (name _ (by decide) (by decide) _)
  · refine .union { name := some "at", default := some .none } (name _ (by decide) (by decide) _) ?_
    intro t ht
    simp only [List.mem_cons, List.not_mem_nil, or_false] at ht
    rcases ht with rfl | rfl
    · exact .null {} none
    · exact .timestampMicros {} none
  · exact .map { name := some "kinds" } (name _ (by decide) (by decide) _)
      (.enum { name := some "Kind" } _ (name _ (by decide) (by decide) _))
  · exact .array { name := some "children" } (name _ (by decide) (by decide) _)
      (.reference {} none (by unfold Qualified; decide))

/-- C61 of the tree. -/
example : ∃ d reg', fromRecap newRegistry tree = .ok d ∧
    toRecap (.dict d) (some "app") newRegistry = .ok (tree, reg') := by
  refine C61_round_trip_partial (by decide) native_tree ⟨?_, ?_⟩
  · simp [Recap.Spec.definedAliases, Recap.Spec.definedAliasesAll, Recap.Spec.own]
  · intro s hs
    simp [Recap.Spec.definedAliases, Recap.Spec.definedAliasesAll, Recap.Spec.own] at hs
    rcases hs with rfl | rfl | rfl | rfl | rfl <;> decide +kernel

/-- A struct with one field. -/
def one (t : RType) : RType := .struct [t] {}

/-- C61 is false of fixed-length bytes, whatever their length: they come back with a variable
length. -/
theorem C61_fixed_refuted (n : Nat) (hn : n ≤ 9223372036854775807) :
    ∃ d reg, fromRecap newRegistry (one (.bytes (.int n) (.bool false)
        { alias := .str "app.f", extra := [("name", .str "f")] })) = .ok d ∧
      toRecap (.dict d) (some "app") newRegistry = .ok (one (.bytes (.int n) (.bool true)
        { alias := .str "app.f", extra := [("name", .str "f")] }), reg) := by
  have hb : ((n : Int) ≤ maxLong) := by
    have : (n : Int) ≤ 9223372036854775807 := by omega
    exact this
  have hr : ∃ reg, ∀ k, parseF (k + 1) (.dict [("name", .str "f"), ("aliases", .list [.str "app.f"]),
      ("type", .str "fixed"), ("size", .int n)]) (some "app") newRegistry = .ok (.bytes (.int n) (.bool true)
        { alias := .str "app.f", extra := [("name", .str "f")] }, reg) := by
    refine ⟨newRegistry ++ [("app.f", .bytes (.int n) (.bool true) { extra := [("name", .str "f")] })], ?_⟩
    intro k
    have : ∀ f, parseComplex f (some "app") (.str "app.f") [("name", .str "f")] [("name", .str "f"),
        ("aliases", .list [.str "app.f"]), ("type", .str "fixed"), ("size", .int n)] "fixed" newRegistry =
        registered (.bytes (.int n) (.bool true) { alias := .str "app.f", extra := [("name", .str "f")] })
          newRegistry := by
      intro f
      simp [parseComplex, Dict.get?, asInt, hb, attrsOf, Dict.getD]
    rw [parseF]
    refine Eq.trans (this (parseF k)) ?_
    rfl
  obtain ⟨reg, hr⟩ := hr
  refine ⟨[("type", .str "record"), ("fields", .list [.dict [("name", .str "f"),
    ("aliases", .list [.str "app.f"]), ("type", .str "fixed"), ("size", .int n)]])], reg, ?_, ?_⟩
  · have : leafSchema (.bytes (.int n) (.bool false) { alias := .str "app.f", extra := [("name", .str "f")] }) =
        .ok [("type", .str "fixed"), ("size", .int n)] := by
      simp [leafSchema, asInt, hb]
    have hc : ∀ k, convertF newRegistry (k + 1) (.bytes (.int n) (.bool false)
        { alias := .str "app.f", extra := [("name", .str "f")] }) = .ok (.dict [("name", .str "f"),
          ("aliases", .list [.str "app.f"]), ("type", .str "fixed"), ("size", .int n)]) := by
      intro k
      rw [convertF]
      simp only [RType.attrs]
      rw [this]
      rfl
    have hw : weight (weightReg 0 newRegistry) (one (.bytes (.int n) (.bool false)
        { alias := .str "app.f", extra := [("name", .str "f")] })) = 2 := rfl
    rw [fromRecap, hw, one, convertF]
    simp only [convertAll, hc]
    rfl
  · have : ∀ k, parseAll (parseF (k + 1)) (some "app") [.dict [("name", .str "f"), ("aliases", .list [.str "app.f"]),
        ("type", .str "fixed"), ("size", .int n)]] newRegistry = .ok ([.bytes (.int n) (.bool true)
          { alias := .str "app.f", extra := [("name", .str "f")] }], reg) := by
      intro k
      simp [parseAll, hr, bind, Except.bind, pure, Except.pure]
    have hp : ∀ k, parseF (k + 2) (.dict [("type", .str "record"), ("fields", .list [.dict [("name", .str "f"),
        ("aliases", .list [.str "app.f"]), ("type", .str "fixed"), ("size", .int n)]])]) (some "app") newRegistry =
        .ok (one (.bytes (.int n) (.bool true) { alias := .str "app.f", extra := [("name", .str "f")] }), reg) := by
      intro k
      simp [parseF, parseDict, header, namespaceOf, Dict.get?, copied, Dict.getD, PyVal.truthy, parseType, primitive,
        parseComplex, PyVal.iter, this, bind, Except.bind, pure, Except.pure, registered, RType.attrs, attrsOf, one]
    rw [toRecap, parse]
    have hz : (PyVal.dict [("type", .str "record"), ("fields", .list [.dict [("name", .str "f"),
        ("aliases", .list [.str "app.f"]), ("type", .str "fixed"), ("size", .int n)]])]).size = 17 := rfl
    rw [hz, hp 15]
    rfl

/-- C61 is false of further types that are written, and of which something else is read. -/
theorem C61_lossy_refuted : ∀ t ∈ [
      RType.bytes (.int 12) (.bool false) { logical := .str "build.recap.Interval",
                                            extra := [("unit", .str "millisecond"), ("name", .str "f")] },
      .int (.int 8) (.bool true) { alias := .str "app.f", extra := [("name", .str "f")] },
      .int (.int 32) (.bool false) { alias := .str "app.f", extra := [("name", .str "f")] },
      .float (.int 16) { alias := .str "app.f", extra := [("name", .str "f")] },
      .string (.int 10) (.bool true) { alias := .str "app.f", extra := [("name", .str "f")] },
      .string (.int 9223372036854775807) (.bool false) { alias := .str "app.f", extra := [("name", .str "f")] },
      .proxy .none { alias := .str "int16", extra := [("name", .str "f")] },
      .list (.bool {}) (.int 3) (.bool false) { alias := .str "app.f", extra := [("name", .str "f")] },
      .bytes (.int 16) (.bool true) { logical := .str "build.recap.Decimal",
                                      extra := [("precision", .int 9), ("scale", .int 2), ("name", .str "f")] }],
    ∃ d t' reg, fromRecap newRegistry (one t) = .ok d ∧
      toRecap (.dict d) (some "app") newRegistry = .ok (one t', reg) ∧ RType.pyEq t t' = false := by
  intro t ht
  simp only [List.mem_cons, List.not_mem_nil, or_false] at ht
  rcases ht with rfl | rfl | rfl | rfl | rfl | rfl | rfl | rfl | rfl
  all_goals exact ⟨_, _, _, rfl, rfl, by decide +kernel⟩

/-- C61 is false of types whose alias is in another namespace: it is read in the namespace that is
given to `to_recap`, or in none. -/
theorem C61_namespace_refuted : ∃ d d1 reg1 reg2,
    fromRecap newRegistry (.struct [] { alias := .str "app.Node", extra := [("name", .str "Node")] }) = .ok d ∧
    toRecap (.dict d) (some "other") newRegistry =
      .ok (.struct [] { alias := .str "other.Node", extra := [("name", .str "Node")] }, reg1) ∧
    toRecap (.dict d) .none newRegistry =
      .ok (.struct [] { alias := .str "_root.Node", extra := [("name", .str "Node")] }, reg2) ∧
    Dict.get? d "aliases" = some d1 := by
  exact ⟨_, _, _, _, rfl, rfl, rfl, rfl⟩

/-- What a duration is read as cannot be written again. -/
theorem C61_duration_refuted : ∃ t reg, toRecap (.dict [("type", .str "record"), ("fields", .list [
      .dict [("name", .str "f"), ("type", .str "fixed"), ("size", .int 12), ("logicalType", .str "duration")]])])
      (some "app") newRegistry = .ok (t, reg) ∧ fromRecap reg t = .error .valueError := by
  exact ⟨_, _, rfl, rfl⟩

end Recap.Avro
