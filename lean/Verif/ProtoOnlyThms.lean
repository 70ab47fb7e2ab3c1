import Verif.ProtoOnlyLemmas
import Verif.ProtoDataThms

/-!
# Which values the type has that is read from a Protobuf file

Property C139.
-/

set_option autoImplicit false

namespace Recap.ProtoData

open Protobuf
open Protobuf.Spec (Within label firstMessage scalar full Decls decls Reads FieldReads Members Fields innerAll inner Key RefersTo Has_read)
open Avro.Spec (IntValue)
open AvroData (HoldsIn)
open Values (Val CommonEra)
open Recap.Spec (children Sub)

/-- **C139, nearly** Every value of the type that is read is nearly a datum of the first message: a datum, apart from
repeated fields and map fields that are null, and strings and bytes of exactly 2 GiB.  References in the type can be
resolved or not. -/
theorem C139_near_partial {ns : String} {file : List Elem} {t : RType} {c : Converter} {x : Val}
    (h : toRecap (newConverter ns) file = .ok (t, c)) (hi : Identifiers file) (hm : Meaningful file)
    (hx : HoldsIn c.registry t x) : NearRoot file x := by
  have hns : (packageOf file).or (newConverter ns).namespaces.getLast? = some ((packageOf file).getD ns) := by
    cases packageOf file <;> rfl
  generalize hp : (packageOf file).getD ns = p at hns
  have hc : Has_read (newConverter ns) (fun _ _ _ => False) := .new
  obtain ⟨name, es, fs, h1, h2, h3⟩ := C99_meaning hc hns h
  have h3 : Fields (decls p file) p es fs := Protobuf.Fields.mono (fun s n e h => h.resolve_left id) h3
  have hu : Unique file := ⟨hi, Classical.byContradiction fun hd => C107_scopes_refuted hd _ h⟩
  have hg : GoodReg (decls p file) c.registry :=
    goodReg_mono (fun s n e h => h.resolve_left id) _ (has_read_good (.read hc hns h))
  have ht : Good (decls p file) t := toRecap_good h (goodReg_new _) hns fun _ _ _ h => h
  subst h2
  exact ⟨name, es, h1, (only_of hu hm hx hg).message _ _ _ _ _ _ .top (first_within h1) rfl h3
    (by simpa only [Good] using ht)⟩

/-- **C139, exactly** The values of the type that is read are those that are nearly data of the first message, if no
reference is left in the type. -/
theorem C139_exactly_partial {ns : String} {file : List Elem} {t : RType} {c : Converter} {x : Val}
    (h : toRecap (newConverter ns) file = .ok (t, c)) (hi : Identifiers file) (hm : Meaningful file) (hc : Closed t) :
    HoldsIn c.registry t x ↔ NearRoot file x := by
  refine ⟨C139_near_partial h hi hm, fun ⟨n, es', h4, h5⟩ => ?_⟩
  have hns : (packageOf file).or (newConverter ns).namespaces.getLast? = some ((packageOf file).getD ns) := by
    cases packageOf file <;> rfl
  generalize hp : (packageOf file).getD ns = p at hns
  obtain ⟨name, es, fs, h1, h2, h3⟩ := C99_meaning .new hns h
  obtain ⟨rfl, rfl⟩ : n = name ∧ es' = es := by rw [h1] at h4; cases h4; exact ⟨rfl, rfl⟩
  have h3 : Fields (decls p file) p es' fs := Protobuf.Fields.mono (fun s n e h => h.resolve_left id) h3
  have hu : Unique file := ⟨hi, Classical.byContradiction fun hd => C107_scopes_refuted hd _ h⟩
  rw [h2] at hc ⊢
  exact message_near_held hu hc h5 rfl rfl .top (first_within h1) h3 .refl

/-- **C139** Every value of the type that is read is a datum of the first message if its strings and bytes are smaller
than 2 GiB, and nothing in it is null or no message has repeated fields or map fields.  What is missing: files with
names that mean nothing where they are used, which are no Protobuf, and files for which the converter has to know other
files. -/
theorem C139_only_partial {ns : String} {file : List Elem} {t : RType} {c : Converter} {x : Val}
    (h : toRecap (newConverter ns) file = .ok (t, c)) (hi : Identifiers file) (hm : Meaningful file) (hs : Small x)
    (hf : Filled x ∨ Single file) (hx : HoldsIn c.registry t x) : Root file x := by
  obtain ⟨n, es, h1, h2⟩ := C139_near_partial h hi hm hx
  exact ⟨n, es, h1, declared_of_near h2 ⟨_, _, rfl, .top, first_within h1⟩ hs hf⟩

/-! ### Examples -/

/-- The elements of the second message. -/
def itemElems : List Elem := [.field (.str "price") 1 "double" (some .required), .field (.str "count") 2 "uint32" .none]

theorem orders_meaningful : Meaningful orders := by
  have key : ∀ scope, Scope orders scope → scope = [orders] ∨ scope = [orderElems, orders] ∨ scope = [itemElems, orders] := by
    intro scope h
    induction h with
    | top => exact .inl rfl
    | @message n es l rest _ hm ih =>
      rcases ih with h | h | h <;> cases h
      · simp [orders] at hm
        rcases hm with ⟨-, rfl⟩ | ⟨-, rfl⟩
        · exact .inr (.inl rfl)
        · exact .inr (.inr rfl)
      · simp [orderElems] at hm
      · simp [itemElems] at hm
  have hstate : Finds orders [orderElems, orders] "State" (.enum "State" [(.str "OPEN", 0), (.str "PAID", 1)])
      [orderElems, orders] :=
    .simple (inner := []) (by decide) (by simp) (by simp [orderElems]) rfl
  have hitem : Finds orders [orderElems, orders] "Item" (.message "Item" itemElems) [orders] :=
    .simple (inner := [orderElems]) (by decide) (by simp [orderElems, Spec.nameOf]) (by simp [orders, itemElems]) rfl
  intro es rest s hs hr hn
  rcases key _ hs with h | h | h <;> cases h
  · cases hr with
    | field h => simp [orders] at h
    | value h => simp [orders] at h
    | member h => simp [orders] at h
  · cases hr with
    | field h =>
      simp [orderElems] at h
      rcases h with ⟨-, -, rfl, -⟩ | ⟨-, -, rfl, -⟩ | ⟨-, -, rfl, -⟩ | ⟨-, -, rfl, -⟩
      · exact absurd hn (by decide +kernel)
      · exact absurd hn (by decide +kernel)
      · exact ⟨_, _, hstate⟩
      · exact ⟨_, _, hitem⟩
    | value h =>
      simp [orderElems] at h
      obtain ⟨-, -, -, rfl⟩ := h
      exact absurd hn (by decide +kernel)
    | member h h' =>
      simp [orderElems] at h
      obtain ⟨-, rfl⟩ := h
      simp at h'
      rcases h' with ⟨-, -, rfl, -⟩ | ⟨-, -, rfl, -⟩ <;> exact absurd hn (by decide +kernel)
  · cases hr with
    | field h =>
      simp [itemElems] at h
      rcases h with ⟨-, -, rfl, -⟩ | ⟨-, -, rfl, -⟩ <;> exact absurd hn (by decide +kernel)
    | value h => simp [itemElems] at h
    | member h => simp [itemElems] at h

mutual
/-- All parts of the value. -/
def parts : Val → List Val
  | .list xs => .list xs :: partsAll xs
  | .map ps => .map ps :: partsPairs ps
  | .struct xs => .struct xs :: partsAll xs
  | x => [x]
/-- All parts of the values. -/
def partsAll : List Val → List Val
  | [] => []
  | x :: xs => parts x ++ partsAll xs
/-- All parts of the keys and values. -/
def partsPairs : List (Val × Val) → List Val
  | [] => []
  | (k, v) :: ps => parts k ++ parts v ++ partsPairs ps
end

theorem mem_partsAll {x y : Val} {xs : List Val} (hx : x ∈ xs) (hy : y ∈ parts x) : y ∈ partsAll xs := by
  induction xs with
  | nil => cases hx
  | cons z xs ih =>
    rw [partsAll]
    rcases List.mem_cons.mp hx with rfl | hx
    · exact List.mem_append_left _ hy
    · exact List.mem_append_right _ (ih hx)

theorem mem_partsPairs {p : Val × Val} {y : Val} {ps : List (Val × Val)} (hp : p ∈ ps)
    (hy : y ∈ parts p.1 ∨ y ∈ parts p.2) : y ∈ partsPairs ps := by
  induction ps with
  | nil => cases hp
  | cons z ps ih =>
    obtain ⟨k, v⟩ := z
    rw [partsPairs]
    rcases List.mem_cons.mp hp with rfl | hp
    · exact List.mem_append_left _ (List.mem_append.mpr hy)
    · exact List.mem_append_right _ (ih hp)

theorem self_parts (x : Val) : x ∈ parts x := by cases x <;> simp [parts]

theorem mem_parts {x y : Val} (h : Part y x) : y ∈ parts x := by
  induction h with
  | refl => exact self_parts _
  | list hx _ ih => rw [parts]; exact List.mem_cons_of_mem _ (mem_partsAll hx ih)
  | key hp _ ih => rw [parts]; exact List.mem_cons_of_mem _ (mem_partsPairs hp (.inl ih))
  | value hp _ ih => rw [parts]; exact List.mem_cons_of_mem _ (mem_partsPairs hp (.inr ih))
  | struct hx _ ih => rw [parts]; exact List.mem_cons_of_mem _ (mem_partsAll hx ih)

/-- A datum without null. -/
def fullOrder : Val := .struct [.int 18446744073709551615, .instant 1700000000123456789, .str "PAID",
  .list [.struct [.float 64, .int 4294967295], .struct [.float 32, .int 0]], .map [(.str "k", .bytes 3)], .int (-5)]

theorem fullOrder_small : Small fullOrder := by
  refine ⟨fun s h => ?_, fun n h => ?_⟩
  · have := mem_parts h
    simp [fullOrder, parts, partsAll, partsPairs] at this
    rcases this with rfl | rfl <;> decide +kernel
  · have := mem_parts h
    simp [fullOrder, parts, partsAll, partsPairs] at this
    omega

theorem fullOrder_filled : Filled fullOrder := by
  intro h
  have := mem_parts h
  simp [fullOrder, parts, partsAll, partsPairs] at this

theorem fullOrder_near : NearRoot orders fullOrder := by
  refine ⟨"Order", orderElems, rfl, .message rfl ?_⟩
  intro i e x he hx
  have sc : ∀ {s x}, Scalar s x → (∀ ns, x = .instant ns → IntValue 64 true ns) → (∀ y, Part y x → y = x) →
      NearDatum orders [orderElems, orders] s x := by
    intro s x h1 h2 h3
    exact .scalar (.scalar h1 fun ns hp => h2 ns (h3 _ hp).symm)
  match i with
  | 0 =>
    cases he; cases hx
    exact .value (by decide) (sc (.uint64 (by decide) (by simp [IntValue])) (by simp) fun y h => by cases h; rfl)
  | 1 =>
    cases he; cases hx
    exact .value (by decide) (sc (.timestamp (by simp [CommonEra])) (by simp [IntValue]) fun y h => by cases h; rfl)
  | 2 =>
    cases he; cases hx
    exact .value (by decide) (.other (by decide +kernel) (.simple (inner := []) (by decide) (by simp)
      (e := .enum "State" [(.str "OPEN", 0), (.str "PAID", 1)]) (by simp [orderElems]) rfl) (.enum (k := 1) (by simp)))
  | 3 =>
    cases he; cases hx
    refine .repeated fun y hy => .other (by decide +kernel) (.simple (inner := [orderElems]) (by decide) (by simp [orderElems, Spec.nameOf])
      (e := .message "Item" itemElems) (by simp [orders, itemElems]) rfl) ?_
    simp only [List.mem_cons, List.not_mem_nil, or_false] at hy
    rcases hy with rfl | rfl
    all_goals
      refine .message rfl fun i e x he hx => ?_
      match i with
      | 0 =>
        cases he; cases hx
        exact .value (by decide) (.scalar (.scalar (.double (by decide)) fun ns hp => by cases hp))
      | 1 =>
        cases he; cases hx
        exact .value (by decide) (.scalar (.scalar (.uint32 (by decide) (by simp [IntValue])) fun ns hp => by cases hp))
      | _ + 2 => simp at hx
  | 4 =>
    cases he; cases hx
    refine .map ?_ ?_
    · intro p hp
      simp only [List.mem_cons, List.not_mem_nil, or_false] at hp
      subst hp
      exact sc (.string (by decide +kernel)) (by simp) fun y h => by cases h; rfl
    · intro p hp
      simp only [List.mem_cons, List.not_mem_nil, or_false] at hp
      subst hp
      exact sc (.bytes (by decide)) (by simp) fun y h => by cases h; rfl
  | 5 =>
    cases he; cases hx
    exact .oneof (m := .str "points") (k := 7) (s := "sint32") (card := .none) (by simp)
      (sc (.int32 (by decide) (by simp [IntValue])) (by simp) fun y h => by cases h; rfl)
  | _ + 6 => simp at hx

example : ∃ c, toRecap (newConverter "_root") orders = .ok (orderType, c) ∧ Identifiers orders ∧ Meaningful orders ∧
    Closed orderType ∧ Small fullOrder ∧ Filled fullOrder ∧ HoldsIn c.registry orderType fullOrder ∧ Root orders fullOrder := by
  obtain ⟨c, h⟩ := orders_read
  have hi : Identifiers orders := identifiers_of (by decide +kernel)
  have hc : Closed orderType := closed_of (by decide +kernel)
  have hx := (C139_exactly_partial h hi orders_meaningful hc).mpr fullOrder_near
  exact ⟨c, h, hi, orders_meaningful, hc, fullOrder_small, fullOrder_filled, hx,
    C139_only_partial h hi orders_meaningful fullOrder_small (.inl fullOrder_filled) hx⟩

/-! ### Values that are no data -/

/-- A message with a repeated field and a map field. -/
def lists : List Elem := [.message "Lists" [.field (.str "xs") 1 "int32" (some .repeated), .mapField (.str "m") 2 "string" "bool"]]

/-- **C139 is false**: the type that is read has null for repeated fields and for map fields, which are empty at
least in every message. -/
theorem C139_null_refuted : ∃ t c, toRecap (newConverter "_root") lists = .ok (t, c) ∧
    HoldsIn c.registry t (.struct [.null, .null]) ∧ (∀ x, ¬Root lists (.struct [.null, x])) ∧
    ∀ x, ¬Root lists (.struct [x, .null]) := by
  refine ⟨_, _, rfl, ?_, ?_, ?_⟩
  · refine .struct rfl fun i f x hf hx => ?_
    match i with
    | 0 => cases hf; cases hx; exact .union List.mem_cons_self (.leaf rfl .null)
    | 1 => cases hf; cases hx; exact .union List.mem_cons_self (.leaf rfl .null)
    | _ + 2 => simp at hx
  · rintro x ⟨n, es, h1, h2⟩
    cases h1
    cases h2 with
    | message _ h =>
      have := h 0 _ _ rfl rfl
      cases this with
      | value h => exact absurd rfl h
      | absent h => simp at h
  · rintro x ⟨n, es, h1, h2⟩
    cases h1
    cases h2 with
    | message _ h => cases h 1 _ _ rfl rfl

/-- A message with bytes. -/
def blob : List Elem := [.message "Blob" [.field (.str "b") 1 "bytes" (some .required)]]

/-- **C139 is false**: the bound for bytes is one too large. -/
theorem C139_size_refuted : ∃ t c, toRecap (newConverter "_root") blob = .ok (t, c) ∧
    HoldsIn c.registry t (.struct [.bytes 2147483648]) ∧ ¬Root blob (.struct [.bytes 2147483648]) := by
  refine ⟨_, _, rfl, ?_, ?_⟩
  · refine .struct rfl fun i f x hf hx => ?_
    match i with
    | 0 => cases hf; cases hx; exact .leaf rfl (.bytes rfl (.inr ⟨_, rfl, by omega⟩))
    | _ + 1 => simp at hx
  · rintro ⟨n, es, h1, h2⟩
    cases h1
    cases h2 with
    | message _ h =>
      have := h 0 _ _ rfl rfl
      cases this with
      | value _ h =>
        cases h with
        | scalar h =>
          generalize hx : Val.bytes 2147483648 = x at h
          generalize hs : "bytes" = s at h
          cases h <;> cases hx
          omega
        | other h => exact absurd h (by decide +kernel)

/-- A message that uses the enum of another message as if it were its own. -/
def foreign : List Elem := [.message "A" [.field (.str "k") 1 "Kind" (some .required)],
  .message "B" [.enum "Kind" [(.str "X", 0)]]]

/-- **C139 is false**: names are found that mean nothing where they are used. -/
theorem C139_names_refuted : ∃ t c, toRecap (newConverter "_root") foreign = .ok (t, c) ∧
    HoldsIn c.registry t (.struct [.str "X"]) ∧ ∀ x, ¬Root foreign x := by
  refine ⟨_, _, rfl, ?_, ?_⟩
  · refine .struct rfl fun i f x hf hx => ?_
    match i with
    | 0 => cases hf; cases hx; exact .leaf rfl (.enum (by simp))
    | _ + 1 => simp at hx
  · rintro x ⟨n, es, h1, h2⟩
    cases h1
    generalize hs : [foreign] = scope at h2
    cases h2 with
    | @message _ _ _ xs hl h =>
      subst hs
      match xs, hl with
      | [x], _ =>
        have := h 0 _ x rfl rfl
        cases this with
        | value _ h =>
          cases h with
          | scalar h =>
            generalize hx : "Kind" = s at h
            cases h <;> first | (exact absurd hx (by decide)) | (subst hx; simp_all)
          | other _ hf =>
            generalize hsc : [[Elem.field (.str "k") 1 "Kind" (some .required)], foreign] = sc at hf
            generalize hx : "Kind" = s at hf
            cases hf with
            | @simple inner l rest _ e _ _ he hn =>
              subst hx
              have hl : l ∈ [[Elem.field (.str "k") 1 "Kind" (some .required)], foreign] := by rw [hsc]; simp
              simp only [List.mem_cons, List.not_mem_nil, or_false] at hl
              rcases hl with rfl | rfl
              · simp at he
                subst he
                simp [Spec.nameOf] at hn
              · simp [foreign] at he
                rcases he with rfl | rfl <;> simp [Spec.nameOf] at hn
            | full h => subst hx; exact absurd h (by decide)
            | @absolute _ s' _ _ h =>
              have := congrArg (fun s => s.toList.head?) hx
              simp at this
        | absent hcard => simp at hcard

/-- **C139 is false**. -/
theorem C139_only_refuted : ¬OnlyMessagesHeld := by
  intro h
  obtain ⟨t, c, h1, h2, h3, -⟩ := C139_null_refuted
  exact h3 _ (h _ _ _ _ _ h1 h2)

end Recap.ProtoData
