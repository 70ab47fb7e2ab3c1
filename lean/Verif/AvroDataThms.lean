import Verif.AvroDataRead

/-!
# Avro data are values of the types that are read (C128)
-/

set_option autoImplicit false

namespace Recap.AvroData

open Avro.Spec (IntValue Header target Other HasType Around root)
open Values (Val)
open Recap.Avro (toRecap)

theorem inside_defines {ns ns' : Option String} {v w : PyVal} {s : String} {ns'' : Option String} {u : PyVal}
    (h : ∀ ns'' u, Inside ns' w ns'' u → Inside ns v ns'' u) (hd : Defines ns' w s ns'' u) : Defines ns v s ns'' u :=
  ⟨h _ _ hd.1, hd.2⟩

/-- The definitions after a schema are those before it and those in it. -/
theorem ordered_defines {env env' : Env} {ns : Option String} {v : PyVal} (h : Ordered env ns v env') :
    ∀ s ns' w, lookup env' s = some (ns', w) → lookup env s = some (ns', w) ∨ Defines ns v s ns' w := by
  have key : ∀ {env : Env} {s s' : String} {ns ns' : Option String} {v w : PyVal},
      lookup (env ++ [(s, ns, v)]) s' = some (ns', w) →
      lookup env s' = some (ns', w) ∨ s' = s ∧ ns' = ns ∧ w = v := by
    intro env s s' ns ns' v w h
    rw [lookup_append] at h
    cases he : lookup env s' with
    | some e => rw [he] at h; exact .inl h
    | none =>
      rw [he] at h
      simp only [lookup] at h
      split at h
      · rename_i hs
        simp only [Option.some.injEq, Prod.mk.injEq] at h
        exact .inr ⟨hs.symm, h.1.symm, h.2.symm⟩
      · cases h
  induction h using Ordered.rec (motive_2 := fun env ns vs env' _ => ∀ s ns' w, lookup env' s = some (ns', w) →
    lookup env s = some (ns', w) ∨ ∃ v ∈ vs, Defines ns v s ns' w) with
  | primitiveName => exact fun s ns' w h => .inl h
  | reference => exact fun s ns' w h => .inl h
  | primitive => exact fun s ns' w h => .inl h
  | logical => exact fun s ns' w h => .inl h
  | fixed hh ht =>
    intro s ns' w h
    rcases key h with h | ⟨rfl, rfl, rfl⟩
    · exact .inl h
    · exact .inr ⟨.here, _, _, _, rfl, hh, .inr (.inr ht.type)⟩
  | enum hh ht =>
    intro s ns' w h
    rcases key h with h | ⟨rfl, rfl, rfl⟩
    · exact .inl h
    · exact .inr ⟨.here, _, _, _, rfl, hh, .inr (.inl ht.type)⟩
  | union _ ih =>
    intro s ns' w h
    rcases ih s ns' w h with h | ⟨v, hv, h⟩
    · exact .inl h
    · exact .inr (inside_defines (fun _ _ => .member hv) h)
  | array _ ht hn _ ih =>
    intro s ns' w h
    exact (ih s ns' w h).imp id (inside_defines fun _ _ => .items ht.type hn)
  | map _ ht hn _ ih =>
    intro s ns' w h
    exact (ih s ns' w h).imp id (inside_defines fun _ _ => .values ht.type hn)
  | record hh ht hn hf _ ih =>
    intro s ns' w h
    rcases key h with h | ⟨rfl, rfl, rfl⟩
    · rcases ih s ns' w h with h | ⟨v, hv, h⟩
      · exact .inl h
      · exact .inr (inside_defines (fun _ _ => .field ht.type hh hn (fieldTypes_of hf) hv) h)
    · exact .inr ⟨.here, _, _, _, rfl, hh, .inl ht.type⟩
  | nil => exact .inl ‹_›
  | cons _ _ ih1 ih2 =>
    rename_i s ns' w h
    rcases ih2 s ns' w h with h | ⟨v, hv, h⟩
    · rcases ih1 s ns' w h with h | h
      · exact .inl h
      · exact .inr ⟨_, List.mem_cons_self, h⟩
    · exact .inr ⟨v, List.mem_cons_of_mem _ hv, h⟩

/-! ## C128 -/

/-- **C128** (partial): every datum of an accepted schema is a value of what is read of the schema,
through all references, if every name in the schema is defined completely before it is used, every
logical type applies to its schema and is not that of a field, and no type with a logical type is
referred to.  (`env` are definitions in the schema.)

Missing: recursive types (`C128_recursive_refuted`), logical types that do not apply
(`C128_annotation_refuted`) or are those of a field (`C128_field_refuted`), references to types with a
logical type (`C128_reference_refuted`), and durations, which are no `Val`. -/
theorem C128_data_partial {v : PyVal} {ns : Option String} {env : Env} (h : Ordered [] ns v env) :
    (∀ s ns' w, lookup env s = some (ns', w) → Defines ns v s ns' w) ∧
    ∀ reg reg' t x, toRecap v ns reg = .ok (t, reg') → Datum env ns v x → HoldsIn reg' t x := by
  constructor
  · intro s ns' w hl
    exact (ordered_defines h s ns' w hl).resolve_left (by simp [lookup])
  · intro reg reg' t x hr hx
    unfold toRecap at hr
    obtain ⟨⟨t', reg1⟩, hp, hr⟩ := ok_bind hr
    have : t' = t ∧ reg1 = reg' := by
      cases t' <;> simp [pure, Except.pure] at hr
      exact hr
    obtain ⟨rfl, rfl⟩ := this
    have := ((reads_all (all := env) h).1 _ _ _ _ [] hp (by simp) (fun s q w hl => by simp [lookup] at hl)).2.2.2 x [] hx
    rwa [List.append_nil] at this

/-- A schema with an enum that is used again, a decimal and an array. -/
def state : Dict := [("type", .str "enum"), ("name", .str "State"), ("symbols", .list [.str "NEW", .str "OLD"])]

/-- An amount of money. -/
def money : Dict := [("type", .str "bytes"), ("logicalType", .str "decimal"), ("precision", .int 6), ("scale", .int 2)]

def order : Dict :=
  [("type", .str "record"), ("name", .str "shop.Order"), ("fields", .list [
    .dict [("name", .str "id"), ("type", .str "long")],
    .dict [("name", .str "state"), ("type", .dict state)],
    .dict [("name", .str "before"), ("type", .list [.str "null", .str "State"])],
    .dict [("name", .str "last"), ("type", .str "State"), ("default", .str "NEW")],
    .dict [("name", .str "paid"), ("type", .dict money)],
    .dict [("name", .str "notes"), ("type", .dict [("type", .str "array"), ("items", .str "string")])]])]

/-- Its definitions. -/
def orderEnv : Env := [("shop.State", some "shop", .dict state), ("shop.Order", .none, .dict order)]

theorem digits_money : Digits money 6 2 := ⟨rfl, .inl rfl, by decide, by decide⟩

theorem header_state : Header (some "shop") state (some ("shop.State", "State")) (some "shop") :=
  .short (q := some "shop") (x := "State") (.inherited rfl) rfl (by decide)

theorem header_order : Header .none order (some ("shop.Order", "Order")) (some "shop") :=
  .full (p := "shop") (x := "Order") (.inherited rfl) rfl (by decide) (by decide)

theorem ordered_order : Ordered [] .none (.dict order) orderEnv := by
  refine .record (env' := [("shop.State", some "shop", .dict state)]) header_order ⟨rfl, rfl⟩ rfl
    (.cons (x := "id") rfl (by decide) rfl ⟨rfl, rfl⟩ <| .cons (x := "state") rfl (by decide) rfl ⟨rfl, rfl⟩ <|
      .cons (x := "before") rfl (by decide) rfl ⟨rfl, rfl⟩ <| .cons (x := "last") rfl (by decide) rfl ⟨rfl, rfl⟩ <|
      .cons (x := "paid") rfl (by decide) rfl ⟨rfl, rfl⟩ <| .cons (x := "notes") rfl (by decide) rfl ⟨rfl, rfl⟩ .nil) ?_
  have ho : Other "State" := ⟨by decide, by decide⟩
  refine .cons (.primitiveName ⟨.int 0, .long (by simp [IntValue])⟩) <| .cons (.enum header_state ⟨rfl, rfl⟩ rfl) <|
    .cons (.union <| .cons (.primitiveName ⟨_, .null⟩) <| .cons (.reference ho (by decide +kernel)) .nil) <|
    .cons (.reference ho (by decide +kernel)) <| .cons (.logical rfl (.decimal rfl digits_money) (fun _ => rfl)) <|
    .cons (.array ⟨rfl, rfl⟩ ⟨rfl, rfl⟩ rfl (.primitiveName ⟨.str "", .string (by decide)⟩)) .nil

/-- C128 of a datum of `order`. -/
example : ∃ t reg', toRecap (.dict order) .none newRegistry = .ok (t, reg') ∧
    HoldsIn reg' t (.struct [.int 7, .str "OLD", .str "NEW", .str "OLD", .decimal 1999 2, .list [.str "gift"]]) := by
  obtain ⟨t, reg', h⟩ : ∃ t reg', toRecap (.dict order) .none newRegistry = .ok (t, reg') := ⟨_, _, rfl⟩
  refine ⟨t, reg', h, (C128_data_partial ordered_order).2 _ _ _ _ h ?_⟩
  refine .record rfl header_order rfl (.cons rfl <| .cons rfl <| .cons rfl <| .cons rfl <| .cons rfl <| .cons rfl .nil) rfl ?_
  have hs : ∀ s, s ∈ ["NEW", "OLD"] → Datum orderEnv (some "shop") (.dict state) (.str s) := by
    intro s hs
    exact .enum (xs := [.str "NEW", .str "OLD"]) rfl rfl (by simpa using hs)
  have ho : Other "State" := ⟨by decide, by decide⟩
  have hr : ∀ s, s ∈ ["NEW", "OLD"] → Datum orderEnv (some "shop") (.str "State") (.str s) :=
    fun s h => .reference (ns' := some "shop") (v := .dict state) ho (by decide +kernel) (hs s h)
  intro i w x hw hx
  match i with
  | 0 => simp at hw hx; subst hw hx; exact .primitiveName (.long (by simp [IntValue]))
  | 1 => simp at hw hx; subst hw hx; exact hs _ (by decide)
  | 2 => simp at hw hx; subst hw hx; exact .union (v := .str "State") (by simp) (hr _ (by decide))
  | 3 => simp at hw hx; subst hw hx; exact hr _ (by decide)
  | 4 =>
    simp at hw hx; subst hw hx
    exact .logical rfl (.decimal rfl digits_money) (.decimal (n := 8) (u := 1999) rfl digits_money rfl (by decide) (by decide) (by simp [IntValue]))
  | 5 =>
    simp at hw hx; subst hw hx
    refine .array rfl rfl fun y hy => ?_
    simp at hy
    subst hy
    exact .primitiveName (.string (by decide))
  | _ + 6 => simp at hw

/-! ## Refutations -/

/-- A string with a logical type that is not for strings. -/
def annotated : PyVal :=
  .dict [("type", .str "record"), ("name", .str "R"), ("fields", .list [
    .dict [("name", .str "at"), ("type", .dict [("type", .str "string"), ("logicalType", .str "timestamp-millis")])]])]

theorem holdsIn_int {reg : Registry} {b s : PyVal} {a : Attrs} {x : Val} (h : HoldsIn reg (.int b s a) x) :
    Values.Holds (.int b s a) x := by
  cases h with
  | leaf _ h => exact h

theorem holdsIn_struct {reg : Registry} {fs : List RType} {a : Attrs} {xs : List Val}
    (h : HoldsIn reg (.struct fs a) (.struct xs)) (i : Nat) (f : RType) (x : Val) (hf : fs[i]? = some f)
    (hx : xs[i]? = some x) : HoldsIn reg f x := by
  cases h with
  | leaf hc _ => simp [Recap.Spec.children] at hc; subst hc; simp at hf
  | struct _ h => exact h i f x hf hx

theorem holdsIn_optional {reg : Registry} {r : Option (List (String × RType))} {a b c : Attrs} {x : Val}
    (h : HoldsIn reg (.union [.null a, .proxy r b] c) x) :
    x = .null ∨ ∃ t, resolve reg r b = .ok t ∧ HoldsIn (r.getD reg) t x := by
  cases h with
  | leaf hc => simp [Recap.Spec.children] at hc
  | union hm h =>
    simp at hm
    rcases hm with rfl | rfl
    · cases h with
      | leaf _ h => cases h; exact .inl rfl
    · cases h with
      | leaf _ h => cases h
      | reference h1 h2 => exact .inr ⟨_, h1, h2⟩

/-- **C128** refuted: no string in a field with a logical type that has to be ignored is a value of what is
read of the field. -/
theorem C128_annotation_refuted : ∃ t reg', toRecap annotated (some "app") newRegistry = .ok (t, reg') ∧
    ∀ s : String, s.utf8ByteSize ≤ 9223372036854775807 →
      Datum [] (some "app") annotated (.struct [.str s]) ∧ ¬HoldsIn reg' t (.struct [.str s]) := by
  refine ⟨_, _, rfl, fun s hs => ⟨?_, fun h => ?_⟩⟩
  · refine .record rfl (.short (q := some "app") (x := "R") (.inherited rfl) rfl (by decide)) rfl (.cons rfl .nil) rfl ?_
    intro i w x hw hx
    match i with
    | 0 =>
      simp at hw hx
      subst hw hx
      refine .primitive rfl (fun l hl ha => ?_) (.string hs)
      have hl : l = "timestamp-millis" := by simpa [Dict.get?] using hl.symm
      subst hl
      generalize he : ("timestamp-millis" : String) = l at ha
      cases ha <;> simp_all [Is, Dict.get?]
    | _ + 1 => simp at hw
  · have := holdsIn_int (holdsIn_struct h 0 _ _ rfl rfl)
    cases this

/-- A field with a logical type of its own. -/
def ownLogical : PyVal :=
  .dict [("type", .str "record"), ("name", .str "R"), ("fields", .list [
    .dict [("name", .str "at"), ("type", .str "long"), ("logicalType", .str "timestamp-millis")]])]

/-- **C128** refuted: the logical type of a field, which has no meaning in Avro, is read as that of its type. -/
theorem C128_field_refuted : ∃ t reg', toRecap ownLogical (some "app") newRegistry = .ok (t, reg') ∧
    ∀ i, IntValue 64 true i →
      Datum [] (some "app") ownLogical (.struct [.int i]) ∧ ¬HoldsIn reg' t (.struct [.int i]) := by
  refine ⟨_, _, rfl, fun i hi => ⟨?_, fun h => ?_⟩⟩
  · refine .record rfl (.short (q := some "app") (x := "R") (.inherited rfl) rfl (by decide)) rfl (.cons rfl .nil) rfl ?_
    intro j w x hw hx
    match j with
    | 0 => simp at hw hx; subst hw hx; exact .primitiveName (.long hi)
    | _ + 1 => simp at hw
  · have := holdsIn_int (holdsIn_struct h 0 _ _ rfl rfl)
    cases this with
    | int h => cases h

/-- A named decimal of 4 bytes. -/
def amount : Dict :=
  [("type", .str "fixed"), ("name", .str "Amount"), ("size", .int 4), ("logicalType", .str "decimal"), ("precision", .int 6)]

/-- Two fields of this type. -/
def amounts : PyVal :=
  .dict [("type", .str "record"), ("name", .str "R"), ("fields", .list [
    .dict [("name", .str "a"), ("type", .dict amount)], .dict [("name", .str "b"), ("type", .str "Amount")]])]

/-- The definition of `Amount`. -/
def amountEnv : Env := [("app.Amount", some "app", .dict amount)]

/-- **C128** refuted: a type with a logical type cannot be referred to. -/
theorem C128_reference_refuted : ∃ t reg', toRecap amounts (some "app") newRegistry = .ok (t, reg') ∧
    Defines (some "app") amounts "app.Amount" (some "app") (.dict amount) ∧
    ∀ m : Int, m.natAbs < 1000000 →
      Datum amountEnv (some "app") amounts (.struct [.decimal m 0, .decimal m 0]) ∧
      ¬HoldsIn reg' t (.struct [.decimal m 0, .decimal m 0]) := by
  have hh : Header (some "app") [("type", .str "record"), ("name", .str "R"), ("fields", .list [
    .dict [("name", .str "a"), ("type", .dict amount)], .dict [("name", .str "b"), ("type", .str "Amount")]])]
    (some ("app.R", "R")) (some "app") := .short (q := some "app") (x := "R") (.inherited rfl) rfl (by decide)
  refine ⟨_, _, rfl, ⟨.field rfl hh rfl (.cons rfl (.cons rfl .nil)) (by simp) .here, _, "Amount", some "app", rfl,
    .short (q := some "app") (x := "Amount") (.inherited rfl) rfl (by decide), .inr (.inr rfl)⟩, fun m hm => ⟨?_, fun h => ?_⟩⟩
  · have hd : Digits amount 6 0 := ⟨rfl, .inr ⟨rfl, rfl⟩, by decide, by decide⟩
    have ha : Datum amountEnv (some "app") (.dict amount) (.decimal m 0) :=
      .logical rfl (.fixedDecimal (n := 4) rfl rfl hd (by decide)) (.fixedDecimal (n := 4) (u := m) rfl rfl hd rfl hm
        (by simp only [IntValue, if_true]; omega))
    refine .record rfl hh rfl (.cons rfl (.cons rfl .nil)) rfl ?_
    intro j w x hw hx
    match j with
    | 0 => simp at hw hx; subst hw hx; exact ha
    | 1 => simp at hw hx; subst hw hx; exact .reference ⟨by decide, by decide⟩ (by rfl) ha
    | _ + 2 => simp at hw
  · have := holdsIn_struct h 1 _ _ rfl rfl
    cases this with
    | leaf _ h => cases h
    | reference h _ => cases h

/-- A list of numbers. -/
def node : PyVal :=
  .dict [("type", .str "record"), ("name", .str "Node"), ("fields", .list [
    .dict [("name", .str "value"), ("type", .str "int")],
    .dict [("name", .str "next"), ("type", .list [.str "null", .str "Node"])]])]

/-- The definition of `Node`. -/
def nodeEnv : Env := [("app.Node", some "app", node)]

/-- **C128** refuted: a list of three numbers is no value of the type that is read of the schema of lists, as
the reference inside the type that the first reference resolves to cannot be resolved. -/
theorem C128_recursive_refuted : ∃ t reg', toRecap node (some "app") newRegistry = .ok (t, reg') ∧
    Defines (some "app") node "app.Node" (some "app") node ∧
    ∀ a b c, IntValue 32 true a → IntValue 32 true b → IntValue 32 true c →
      Datum nodeEnv (some "app") node (.struct [.int a, .struct [.int b, .struct [.int c, .null]]]) ∧
      ¬HoldsIn reg' t (.struct [.int a, .struct [.int b, .struct [.int c, .null]]]) := by
  have hh : Header (some "app") [("type", .str "record"), ("name", .str "Node"), ("fields", .list [
    .dict [("name", .str "value"), ("type", .str "int")],
    .dict [("name", .str "next"), ("type", .list [.str "null", .str "Node"])]])]
    (some ("app.Node", "Node")) (some "app") := .short (q := some "app") (x := "Node") (.inherited rfl) rfl (by decide)
  refine ⟨_, _, rfl, ⟨.here, _, "Node", some "app", rfl, hh, .inl rfl⟩, fun a b c ha hb hc => ⟨?_, fun h => ?_⟩⟩
  · have step : ∀ i x, IntValue 32 true i → Datum nodeEnv (some "app") (.list [.str "null", .str "Node"]) x →
        Datum nodeEnv (some "app") node (.struct [.int i, x]) := by
      intro i x hi hx
      refine .record rfl hh rfl (.cons rfl (.cons rfl .nil)) rfl ?_
      intro j w y hw hy
      match j with
      | 0 => simp at hw hy; subst hw hy; exact .primitiveName (.int hi)
      | 1 => simp at hw hy; subst hw hy; exact hx
      | _ + 2 => simp at hw
    have link : ∀ x, Datum nodeEnv (some "app") node x → Datum nodeEnv (some "app") (.list [.str "null", .str "Node"]) x :=
      fun x hx => .union (v := .str "Node") (by simp) (.reference ⟨by decide, by decide⟩ (by rfl) hx)
    exact step _ _ ha (link _ (step _ _ hb (link _ (step _ _ hc (.union (v := .str "null") (by simp) (.primitiveName .null))))))
  · rcases holdsIn_optional (holdsIn_struct h 1 _ _ rfl rfl) with h1 | ⟨u, hr, h1⟩
    · cases h1
    · cases hr
      rcases holdsIn_optional (holdsIn_struct h1 1 _ _ rfl rfl) with h2 | ⟨u, hr, -⟩
      · cases h2
      · cases hr

/-- **C128** refuted. -/
theorem C128_data_refuted : ¬DataHeld := by
  intro h
  obtain ⟨t, reg', h1, h2, h3⟩ := C128_recursive_refuted
  obtain ⟨h4, h5⟩ := h3 0 0 0 (by simp [IntValue]) (by simp [IntValue]) (by simp [IntValue])
  refine h5 (h _ _ _ _ _ nodeEnv _ (fun s ns' w hl => ?_) h1 h4)
  simp only [nodeEnv, lookup] at hl
  split at hl
  · rename_i hs
    subst hs
    cases hl
    exact h2
  · cases hl

end Recap.AvroData
