import Verif.ProtoDataRead

/-!
# Which data of Protobuf are values of a type

Properties C133, C134.
-/

set_option autoImplicit false

namespace Recap.ProtoData

open Protobuf
open Protobuf.Spec (Within label firstMessage scalar full Decls decls Reads FieldReads Members Fields innerAll inner Key Has_read)
open Avro.Spec (IntValue)
open AvroData (HoldsIn)
open Values (Val CommonEra)
open Recap.Spec (children Sub)

/-! ## What is read -/

/-- **C133, up to references** Every datum of the first message of a file that is read is a value of the type that is
returned, where a reference in the type has the data of the message or enum with that name.  What is missing: that
the references can be resolved, points in time that are 2 ^ 63 nanoseconds or more away from 1970, and files for
which the converter has to know other files. -/
theorem C133_references_partial {ns p : String} {file : List Elem} {t : RType} {c : Converter} {x : Val}
    (h : toRecap (newConverter ns) file = .ok (t, c)) (hp : (packageOf file).getD ns = p) (hi : Identifiers file)
    (hx : Root file x) (hn : Near x) : HoldsWith (Means p file) t x := by
  have hns : (packageOf file).or (newConverter ns).namespaces.getLast? = some p := by
    rw [← hp]
    cases packageOf file <;> rfl
  have hc : Has_read (newConverter ns) (fun _ _ _ => False) := .new
  obtain ⟨name, es, fs, h1, h2, h3⟩ := C99_meaning hc hns h
  obtain ⟨n, es', h4, h5⟩ := hx
  rw [h1] at h4
  cases h4
  have h3 : Fields (decls p file) p es fs := Protobuf.Fields.mono (fun s n e h => h.resolve_left id) h3
  have hu : Unique file := ⟨hi, Classical.byContradiction fun hd => C107_scopes_refuted hd _ h⟩
  have hk : Context p file t := by
    refine ⟨hu, fun r a hs s ha => ?_⟩
    obtain ⟨u, h6, h7, h8⟩ := toRecap_left hc h hs
    rw [ha] at h8
    obtain ⟨-, n, e, h9⟩ := (toRecap_named hc hns h u h6).2 h7 s h8
    exact ⟨n, e, h9.resolve_left id⟩
  rw [h2] at hk ⊢
  exact message_held hk h5 rfl rfl .top (first_within h1) h3 .refl hn

theorem holdsWith_closed {refs : String → Val → Prop} {t : RType} {x : Val} (h : HoldsWith refs t x) (hc : Closed t)
    (reg : Registry) : HoldsIn reg t x := by
  induction h with
  | leaf h1 h2 => exact .leaf h1 h2
  | list _ ih => exact .list fun x hx => ih x hx fun r a hs => hc r a (.list hs)
  | map _ _ ih1 ih2 =>
    exact .map (fun p hp => ih1 p hp fun r a hs => hc r a (.key hs)) fun p hp => ih2 p hp fun r a hs => hc r a (.value hs)
  | struct hl _ ih =>
    exact .struct hl fun i f x hf hx => ih i f x hf hx fun r a hs => hc r a (.field (List.mem_of_getElem? hf) hs)
  | union hm _ ih => exact .union hm (ih fun r a hs => hc r a (.member hm hs))
  | reference => exact absurd .refl (hc _ _)

/-- **C133, without references** Every datum of the first message of a file is a value of the type that is read of
the file if no reference is left in it. -/
theorem C133_messages_partial {ns : String} {file : List Elem} {t : RType} {c : Converter} {x : Val}
    (h : toRecap (newConverter ns) file = .ok (t, c)) (hi : Identifiers file) (hc : Closed t) (hx : Root file x)
    (hn : Near x) : HoldsIn c.registry t x :=
  holdsWith_closed (C133_references_partial h rfl hi hx hn) hc _

/-! ### An example -/

/-- The elements of the first message. -/
def orderElems : List Elem := [.field (.str "id") 1 "fixed64" (some .required),
  .field (.str "at") 2 "google.protobuf.Timestamp" .none, .enum "State" [(.str "OPEN", 0), (.str "PAID", 1)],
  .field (.str "state") 3 "State" .none, .field (.str "items") 4 "Item" (some .repeated),
  .mapField (.str "tags") 5 "string" "bytes",
  .oneof (.str "payment") [.field (.str "card") 6 "string" .none, .field (.str "points") 7 "sint32" .none]]

/-- A file with two messages and a nested enum. -/
def orders : List Elem := [.package "shop", .message "Order" orderElems,
  .message "Item" [.field (.str "price") 1 "double" (some .required), .field (.str "count") 2 "uint32" .none]]

/-- A datum. -/
def anOrder : Val := .struct [.int 18446744073709551615, .instant 1700000000123456789, .str "PAID",
  .list [.struct [.float 64, .int 4294967295], .struct [.float 32, .null]], .map [(.str "k", .bytes 3)], .int (-5)]

/-- What is read. -/
def orderType : RType := .struct [.int (.int 64) (.bool false) { extra := [("name", .str "id")] },
  .union [.null {}, .int (.int 64) (.bool true)
      { logical := .str "build.recap.Timestamp", extra := [("unit", .str "nanosecond"), ("timezone", .str "UTC")] }]
    { extra := [("default", .none), ("name", .str "at")] },
  .union [.null {}, .enum (.list [.str "OPEN", .str "PAID"]) { alias := .str "shop.State" }]
    { extra := [("default", .none), ("name", .str "state")] },
  .union [.null {}, .list (.struct [.float (.int 64) { extra := [("name", .str "price")] },
      .union [.null {}, .int (.int 32) (.bool false) {}] { extra := [("default", .none), ("name", .str "count")] }]
      { alias := .str "shop.Item" }) .none (.bool true) {}]
    { extra := [("default", .none), ("name", .str "items")] },
  .union [.null {}, .map (.string (.int 2147483648) (.bool true) {}) (.bytes (.int 2147483648) (.bool true) {}) {}]
    { extra := [("default", .none), ("name", .str "tags")] },
  .union [.null {}, .string (.int 2147483648) (.bool true) { extra := [("name", .str "card")] },
      .int (.int 32) (.bool true) { extra := [("name", .str "points")] }]
    { extra := [("name", .str "payment"), ("default", .none)] }] { alias := .str "shop.Order" }

theorem orders_read : ∃ c, toRecap (newConverter "_root") orders = .ok (orderType, c) := ⟨_, rfl⟩

/-- No message or enum in the elements has a dot in its name. -/
def dotless (es : List Elem) : Bool :=
  ((innerAll es).filterMap Spec.nameOf).all fun n => decide ('.' ∉ n.toList)

theorem identifiers_of {es : List Elem} (h : dotless es = true) : Identifiers es := by
  intro e n hw hn
  have := List.all_eq_true.mp h n (List.mem_filterMap.mpr ⟨e, within_inner hn hw, hn⟩)
  simpa using this

mutual
/-- No reference is in the type. -/
def closed : RType → Bool
  | .proxy .. => false
  | .list t _ _ _ => closed t
  | .map k v _ => closed k && closed v
  | .struct fs _ => closedAll fs
  | .union ts _ => closedAll ts
  | _ => true
/-- No reference is in the types. -/
def closedAll : List RType → Bool
  | [] => true
  | t :: ts => closed t && closedAll ts
end

theorem closedAll_mem {ts : List RType} (h : closedAll ts = true) : ∀ t ∈ ts, closed t = true := by
  induction ts with
  | nil => simp
  | cons u ts ih =>
    simp only [closedAll, Bool.and_eq_true] at h
    intro t ht
    rcases List.mem_cons.mp ht with rfl | ht
    · exact h.1
    · exact ih h.2 t ht

theorem closed_of {t : RType} (h : closed t = true) : Closed t := by
  intro r a hs
  generalize hu : RType.proxy r a = u at hs
  induction hs with
  | refl => subst hu; simp [closed] at h
  | list _ ih => exact ih (by simpa [closed] using h)
  | key _ ih => exact ih (by simp [closed] at h; exact h.1)
  | value _ ih => exact ih (by simp [closed] at h; exact h.2)
  | field hm _ ih => exact ih (closedAll_mem (by simpa [closed] using h) _ hm)
  | member hm _ ih => exact ih (closedAll_mem (by simpa [closed] using h) _ hm)

theorem anOrder_root : Root orders anOrder := by
  refine ⟨"Order", orderElems, rfl, .message rfl ?_⟩
  intro i e x he hx
  match i with
  | 0 =>
    cases he; cases hx
    exact .value (by decide) (.scalar (.uint64 (by decide) (by simp [IntValue])))
  | 1 =>
    cases he; cases hx
    exact .value (by decide) (.scalar (.timestamp (by simp [CommonEra])))
  | 2 =>
    cases he; cases hx
    exact .value (by decide) (.other (by decide +kernel) (.simple (inner := []) (by decide) (by simp)
      (e := .enum "State" [(.str "OPEN", 0), (.str "PAID", 1)]) (by simp [orderElems]) rfl) (.enum (k := 1) (by simp)))
  | 3 =>
    cases he; cases hx
    refine .repeated fun y hy => .other (by decide +kernel) (.simple (inner := [orderElems]) (by decide) (by simp [orderElems, Spec.nameOf])
      (e := .message "Item" [.field (.str "price") 1 "double" (some .required), .field (.str "count") 2 "uint32" .none])
      (by simp [orders]) rfl) ?_
    simp only [List.mem_cons, List.not_mem_nil, or_false] at hy
    rcases hy with rfl | rfl
    all_goals
      refine .message rfl fun i e x he hx => ?_
      match i with
      | 0 => cases he; cases hx; exact .value (by decide) (.scalar (.double (by decide)))
      | 1 =>
        cases he; cases hx
        first
        | exact .value (by decide) (.scalar (.uint32 (by decide) (by simp [IntValue])))
        | exact .absent (.inl rfl)
      | _ + 2 => simp [fields, label] at he
  | 4 =>
    cases he; cases hx
    refine .map ?_ ?_
    · intro p hp
      simp only [List.mem_cons, List.not_mem_nil, or_false] at hp
      subst hp
      exact .scalar (.string (by decide +kernel))
    · intro p hp
      simp only [List.mem_cons, List.not_mem_nil, or_false] at hp
      subst hp
      exact .scalar (.bytes (by decide))
  | 5 =>
    cases he; cases hx
    exact .oneof (m := .str "points") (k := 7) (s := "sint32") (card := .none) (by simp)
      (.scalar (.int32 (by decide) (by simp [IntValue])))
  | _ + 6 => simp at hx

theorem anOrder_near : Near anOrder := by
  intro ns h
  have : ns = 1700000000123456789 := by
    unfold anOrder at h
    cases h with
    | struct hm h =>
      simp only [List.mem_cons, List.not_mem_nil, or_false] at hm
      rcases hm with rfl | rfl | rfl | rfl | rfl | rfl
      · cases h
      · cases h
        rfl
      · cases h
      · cases h with
        | list hm h =>
          simp only [List.mem_cons, List.not_mem_nil, or_false] at hm
          rcases hm with rfl | rfl
          all_goals
            cases h with
            | struct hm h =>
              simp only [List.mem_cons, List.not_mem_nil, or_false] at hm
              rcases hm with rfl | rfl <;> cases h
      · cases h with
        | key hm h =>
          simp only [List.mem_cons, List.not_mem_nil, or_false] at hm
          subst hm
          cases h
        | value hm h =>
          simp only [List.mem_cons, List.not_mem_nil, or_false] at hm
          subst hm
          cases h
      · cases h
  subst this
  simp [IntValue]

example : ∃ c, toRecap (newConverter "_root") orders = .ok (orderType, c) ∧ Identifiers orders ∧ Closed orderType ∧
    Root orders anOrder ∧ Near anOrder ∧ HoldsIn c.registry orderType anOrder := by
  obtain ⟨c, h⟩ := orders_read
  have hi : Identifiers orders := identifiers_of (by decide +kernel)
  have hc : Closed orderType := closed_of (by decide +kernel)
  exact ⟨c, h, hi, hc, anOrder_root, anOrder_near, C133_messages_partial h hi hc anOrder_root anOrder_near⟩

/-! ### What is not held -/

theorem holdsIn_field {reg : Registry} {fs : List RType} {a : Attrs} {xs : List Val}
    (h : HoldsIn reg (.struct fs a) (.struct xs)) (i : Nat) (f : RType) (x : Val) (hf : fs[i]? = some f)
    (hx : xs[i]? = some x) : HoldsIn reg f x := by
  cases h with
  | leaf hc _ => simp [children] at hc; subst hc; simp at hf
  | struct _ h => exact h i f x hf hx

/-- A message with a point in time. -/
def event : List Elem := [.message "Event" [.field (.str "at") 1 "google.protobuf.Timestamp" (some .required)]]

/-- **C133 is false**: no point in time that is 2 ^ 63 nanoseconds or more away from 1970, such as those after
2262, is a value of the type that is read. -/
theorem C133_timestamps_refuted : ∃ t c, toRecap (newConverter "_root") event = .ok (t, c) ∧
    ∀ ns, CommonEra ns → ¬IntValue 64 true ns →
      Root event (.struct [.instant ns]) ∧ ¬HoldsIn c.registry t (.struct [.instant ns]) := by
  refine ⟨_, _, rfl, fun ns h1 h2 => ⟨?_, fun h => ?_⟩⟩
  · refine ⟨"Event", _, rfl, .message rfl fun i e x he hx => ?_⟩
    match i with
    | 0 => cases he; cases hx; exact .value (by decide) (.scalar (.timestamp h1))
    | _ + 1 => simp at hx
  · have := holdsIn_field h 0 _ _ rfl rfl
    cases this with
    | leaf _ h =>
      generalize hx : Val.instant ns = x at h
      cases h with
      | int h => cases h
      | instant _ g1 g2 g3 =>
        cases g1
        cases g2
        cases hx
        rw [Int.mul_one] at h2
        exact h2 g3
      | date => cases hx
      | time h => exact absurd h (by decide)

example : CommonEra 253402300799000000000 ∧ ¬IntValue 64 true 253402300799000000000 := by
  simp [CommonEra, IntValue]

/-- A list of numbers inside a message. -/
def chain : List Elem := [
  .message "Chain" [.field (.str "first") 1 "Node" (some .required)],
  .message "Node" [.field (.str "value") 1 "int32" (some .required), .field (.str "next") 2 "Node" .none]]

/-- **C133 is false**: lists with more than one number are no values of the type that is read, as the reference in it
cannot be resolved. -/
theorem C133_recursive_refuted : ∃ t c, toRecap (newConverter "_root") chain = .ok (t, c) ∧
    ∀ a b, IntValue 32 true a → IntValue 32 true b →
      Root chain (.struct [.struct [.int a, .struct [.int b, .null]]]) ∧
      ¬HoldsIn c.registry t (.struct [.struct [.int a, .struct [.int b, .null]]]) := by
  refine ⟨_, _, rfl, fun a b ha hb => ⟨?_, fun h => ?_⟩⟩
  · have node : ∀ i x, IntValue 32 true i → Element chain [[.field (.str "value") 1 "int32" (some .required),
        .field (.str "next") 2 "Node" .none], chain] (.field (.str "next") 2 "Node" .none) x →
        Declared chain [chain] (.message "Node" [.field (.str "value") 1 "int32" (some .required),
          .field (.str "next") 2 "Node" .none]) (.struct [.int i, x]) := by
      intro i x hi hx
      refine .message rfl fun j e y he hy => ?_
      match j with
      | 0 => cases he; cases hy; exact .value (by decide) (.scalar (.int32 (by decide) hi))
      | 1 => cases he; cases hy; exact hx
      | _ + 2 => simp at hy
    refine ⟨"Chain", _, rfl, .message rfl fun i e x he hx => ?_⟩
    match i with
    | 0 =>
      cases he; cases hx
      refine .value (by decide) (.other (by decide +kernel) (.simple (inner := [_]) (by decide) (by simp [Spec.nameOf])
        (by simp [chain]) rfl) (node _ _ ha ?_))
      exact .value (by decide) (.other (by decide +kernel) (.simple (inner := [_]) (by decide) (by simp [Spec.nameOf])
        (by simp [chain]) rfl) (node _ _ hb (.absent (.inl rfl))))
    | _ + 1 => simp at hx
  · have h1 := holdsIn_field (holdsIn_field h 0 _ _ rfl rfl) 1 _ _ rfl rfl
    cases h1 with
    | leaf hc => simp [children] at hc
    | union hm h =>
      simp only [List.mem_cons, List.not_mem_nil, or_false] at hm
      rcases hm with rfl | rfl
      · cases h with
        | leaf _ h => cases h
      · cases h with
        | leaf _ h => cases h
        | reference h _ => cases h

/-- **C133 is false**. -/
theorem C133_messages_refuted : ¬MessagesHeld := by
  intro h
  obtain ⟨t, c, h1, h2⟩ := C133_timestamps_refuted
  obtain ⟨h3, h4⟩ := h2 253402300799000000000 (by simp [CommonEra]) (by simp [IntValue])
  exact h4 (h _ _ _ _ _ h1 h3)

end Recap.ProtoData
