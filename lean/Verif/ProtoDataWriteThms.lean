import Verif.ProtoDataThms
import Verif.ProtoDataWrite
import Verif.CompactNestedThms

/-!
# Which values of a type are data of the Protobuf that is written

Properties C134 and C135.
-/

set_option autoImplicit false

namespace Recap.ProtoData

open Protobuf
open Protobuf.Spec (members Nestable AllReached Has Alias Reached Declares)
open Avro.Spec (IntValue)
open AvroData (HoldsIn)
open Values (Val)
open Recap.Spec (children Sub)

/-! ## Values are data -/

theorem writes_struct {fs : List RType} {a : Attrs} {s : String} (ha : a.alias = .str s) :
    Writes (.struct fs a) ("." ++ s) := .inr ⟨id, s, ha, rfl⟩

/-- **C134, up to references** Every value of a struct is a datum of the message that is written for it, where a
reference has the data of the message or enum with its name.  What is missing: types that Protobuf cannot express, and
logical types of integers and bytes. -/
theorem C134_references_partial {fs : List RType} {a : Attrs} {file : List Elem} {p s : String} {x : Val}
    (h : fromRecap (.struct fs a) = .ok file) (hp : .package p ∈ file) (ha : a.alias = .str s)
    (hr : Regular (.struct fs a) p) (hl : Literal (.struct fs a)) (hx : HoldsWith (Named file) (.struct fs a) x) :
    Datum file [file] ("." ++ s) x :=
  have hw : Writing (.struct fs a) file p := ⟨h, hp, hr⟩
  stored_datum hw ((holds_stored hw hl hx .refl).1 _ trivial (writes_struct ha)) .refl (writes_struct ha) _

theorem closed_holdsWith {refs : String → Val → Prop} {reg : Registry} {t : RType} {x : Val} (h : HoldsIn reg t x)
    (hc : Closed t) : HoldsWith refs t x := by
  induction h with
  | leaf h1 h2 => exact .leaf h1 h2
  | list _ ih => exact .list fun x hx => ih x hx fun r a hs => hc r a (.list hs)
  | map _ _ ih1 ih2 =>
    exact .map (fun p hp => ih1 p hp fun r a hs => hc r a (.key hs)) fun p hp => ih2 p hp fun r a hs => hc r a (.value hs)
  | struct hl _ ih =>
    exact .struct hl fun i f x hf hx => ih i f x hf hx fun r a hs => hc r a (.field (List.mem_of_getElem? hf) hs)
  | union hm _ ih => exact .union hm (ih fun r a hs => hc r a (.member hm hs))
  | reference => exact absurd .refl (hc _ _)

/-- **C134, without references** Every value of a struct without references is a datum of the message. -/
theorem C134_values_partial {live : Registry} {fs : List RType} {a : Attrs} {file : List Elem} {p s : String} {x : Val}
    (h : fromRecap (.struct fs a) = .ok file) (hp : .package p ∈ file) (ha : a.alias = .str s)
    (hr : Regular (.struct fs a) p) (hl : Literal (.struct fs a)) (hc : Closed (.struct fs a))
    (hx : HoldsIn live (.struct fs a) x) : Datum file [file] ("." ++ s) x :=
  C134_references_partial h hp ha hr hl (closed_holdsWith hx hc)

/-! ## Data are values -/

/-- **C135, exactly** The data of the message that is written for a struct are the values of the struct as Protobuf
stores them: numbers have 32 or 64 bits, strings and bytes are shorter than 2 GiB, no length is kept, and a field that
is neither a list nor a map can be absent.  What is missing: types that Protobuf cannot express. -/
theorem C135_exactly_partial {fs : List RType} {a : Attrs} {file : List Elem} {p s : String} {x : Val}
    (h : fromRecap (.struct fs a) = .ok file) (hp : .package p ∈ file) (ha : a.alias = .str s)
    (hr : Regular (.struct fs a) p) : Datum file [file] ("." ++ s) x ↔ Stored (Named file) (.struct fs a) x :=
  have hw : Writing (.struct fs a) file p := ⟨h, hp, hr⟩
  ⟨fun hx => datum_stored hw hx .refl trivial (writes_struct ha),
    fun hx => stored_datum hw hx .refl (writes_struct ha) _⟩

mutual
theorem stored_holds {refs : String → Val → Prop} {t : RType} (he : Exact t) (hl : Literal t) {u : RType} {x : Val}
    (h : Stored refs u x) (hs : Sub u t) : HoldsWith refs u x :=
  match h with
  | .null => .leaf rfl .null
  | .bool => .leaf rfl .bool
  | .int (b := b) hn hi => by
    rcases he.ints _ _ _ hs with rfl | rfl
    · exact .leaf rfl (.int (hl.1 _ _ _ hs) hi)
    · exact absurd (hn 64 rfl) (by decide)
  | .long hn _ hi => by
    rcases he.ints _ _ _ hs with h | h
    · cases h
      exact absurd hn (by decide)
    · cases h
      exact .leaf rfl (.int (hl.1 _ _ _ hs) hi)
  | .float hn hm => by
    rcases he.floats _ _ hs with rfl | rfl
    · exact .leaf rfl (.float (by omega))
    · exact absurd (hn 64 rfl) (by decide)
  | .double hn _ hm => by
    rcases he.floats _ _ hs with h | h
    · cases h
      exact absurd hn (by decide)
    · cases h
      exact .leaf rfl (.float (by omega))
  | .string hn => by
    obtain ⟨rfl, h1⟩ := he.strings _ _ _ hs
    exact .leaf rfl (.string h1 (.inr ⟨_, rfl, by omega⟩))
  | .bytes hn => by
    cases he.bytes _ _ _ hs
    exact .leaf rfl (.bytes (hl.2 _ _ _ hs) (.inr ⟨_, rfl, by omega⟩))
  | .enum hm => .leaf rfl (.enum hm)
  | .struct hlen hx => .struct hlen fun i f x hf hxi =>
    storedField_holds he hl (hx i f x hf hxi) (sub_trans (.field (List.mem_of_getElem? hf) .refl) hs)
      (he.fields _ _ hs f (List.mem_of_getElem? hf))
  | .reference ha hr => .reference ha hr
theorem storedField_holds {refs : String → Val → Prop} {t : RType} (he : Exact t) (hl : Literal t) {u : RType} {x : Val}
    (h : StoredField refs u x) (hs : Sub u t) (hp : ¬Protobuf.Spec.Plain u) : HoldsWith refs u x :=
  match h with
  | .absent h => absurd h hp
  | .value h _ => absurd h hp
  | .list hx => by
    cases he.lists _ _ _ _ hs
    exact .list fun x hm => stored_holds he hl (hx x hm) (sub_trans (.list .refl) hs)
  | .map hk hv =>
    .map (fun q hq => stored_holds he hl (hk q hq) (sub_trans (.key .refl) hs))
      fun q hq => stored_holds he hl (hv q hq) (sub_trans (.value .refl) hs)
  | .missing => by
    obtain ⟨b, hb⟩ := he.unions _ _ hs
    exact .union hb (.leaf rfl .null)
  | .member hm hv =>
    .union (List.mem_filter.mp hm).1 (stored_holds he hl hv (sub_trans (members_sub hm) hs))
end

/-- **C135 for types of Protobuf, up to references** The data of the message are exactly the values of the struct, if
it has nothing that Protobuf does not keep. -/
theorem C135_references_partial {fs : List RType} {a : Attrs} {file : List Elem} {p s : String} {x : Val}
    (h : fromRecap (.struct fs a) = .ok file) (hp : .package p ∈ file) (ha : a.alias = .str s)
    (hr : Regular (.struct fs a) p) (hl : Literal (.struct fs a)) (he : Exact (.struct fs a)) :
    Datum file [file] ("." ++ s) x ↔ HoldsWith (Named file) (.struct fs a) x :=
  ⟨fun hx => stored_holds he hl ((C135_exactly_partial h hp ha hr).mp hx) .refl,
    fun hx => C134_references_partial h hp ha hr hl hx⟩

/-- **C135 for types of Protobuf, without references** The same for the values of the struct. -/
theorem C135_only_partial {live : Registry} {fs : List RType} {a : Attrs} {file : List Elem} {p s : String} {x : Val}
    (h : fromRecap (.struct fs a) = .ok file) (hp : .package p ∈ file) (ha : a.alias = .str s)
    (hr : Regular (.struct fs a) p) (hl : Literal (.struct fs a)) (he : Exact (.struct fs a))
    (hc : Closed (.struct fs a)) : Datum file [file] ("." ++ s) x ↔ HoldsIn live (.struct fs a) x :=
  ⟨fun hx => holdsWith_closed ((C135_references_partial h hp ha hr hl he).mp hx) hc _,
    fun hx => C134_values_partial h hp ha hr hl hc hx⟩

/-! ### Examples -/

/-- `Plain` as a check. -/
def plain : RType → Bool
  | .list .. | .map .. | .union .. => false
  | _ => true

theorem plain_iff {t : RType} : plain t = true ↔ Protobuf.Spec.Plain t := by
  cases t <;> simp [plain, Protobuf.Spec.Plain]

/-- `Nestable` as a check. -/
def nestable : RType → Bool
  | .list u _ _ _ => plain u
  | .map k u _ => plain k && plain u
  | .union ts _ => !(members ts).isEmpty && (members ts).all plain
  | _ => true

theorem nestable_of {t : RType} (h : nestable t = true) : Nestable t := by
  cases t with
  | list => exact plain_iff.mp h
  | map =>
    simp only [nestable, Bool.and_eq_true] at h
    exact ⟨plain_iff.mp h.1, plain_iff.mp h.2⟩
  | union ts a =>
    simp only [nestable, Bool.and_eq_true, List.all_eq_true] at h
    exact ⟨fun he => by simp [he] at h, fun t ht => plain_iff.mp (h.2 t ht)⟩
  | _ => trivial

/-- One part of a type is as `Regular` asks for. -/
def regularNode : RType → Bool
  | .struct fs _ => fs.all nestable
  | .enum (.list _) _ => true
  | .enum _ _ => false
  | _ => true

/-- A struct or an enum. -/
def definite : RType → Bool
  | .struct .. | .enum .. => true
  | _ => false

theorem definite_of {t : RType} (h : Definite t) : definite t = true := by
  rcases h with ⟨_, _, rfl⟩ | ⟨_, _, rfl⟩ <;> rfl

theorem regular_of {t : RType} {p : String} (hr : AllReached t p) (h : (subs t).all regularNode = true)
    (ho : ((subs t).filter definite).all (fun u => ((subs t).filter definite).all fun v =>
      decide (u.attrs.alias = v.attrs.alias → u.withAttrs {} = v.withAttrs {})) = true) : Regular t p := by
  refine ⟨hr, fun fs a hs f hf => ?_, fun ss a hs => ?_, fun u v hu hv du dv he => ?_⟩
  · have := List.all_eq_true.mp h _ (mem_subs hs)
    exact nestable_of (List.all_eq_true.mp this f hf)
  · have := List.all_eq_true.mp h _ (mem_subs hs)
    cases ss <;> first | exact ⟨_, rfl⟩ | cases this
  · have h1 := List.all_eq_true.mp ho u (List.mem_filter.mpr ⟨mem_subs hu, definite_of du⟩)
    have h2 := List.all_eq_true.mp h1 v (List.mem_filter.mpr ⟨mem_subs hv, definite_of dv⟩)
    exact of_decide_eq_true h2 he

/-- One part of a type is as `Exact` and `Literal` ask for. -/
def exactNode : RType → Bool
  | .int b _ a => decide ((b = .int 32 ∨ b = .int 64) ∧ a.logical = .none)
  | .float b _ => decide (b = .int 32 ∨ b = .int 64)
  | .string l _ a | .bytes l _ a => decide (l = .int 2147483647 ∧ a.logical = .none)
  | .list _ l _ _ => decide (l = .none)
  | .union ts _ => ts.any RType.isNull
  | .struct fs _ => fs.all (fun f => !plain f)
  | _ => true

theorem exact_of {t : RType} (h : (subs t).all exactNode = true) : Exact t ∧ Literal t := by
  have hm : ∀ u, Sub u t → exactNode u = true := fun u hu => List.all_eq_true.mp h u (mem_subs hu)
  refine ⟨⟨fun b s a hs => ?_, fun b a hs => ?_, fun l v a hs => ?_, fun l v a hs => ?_, fun u l v a hs => ?_,
    fun ts a hs => ?_, fun fs a hs f hf hp => ?_⟩, fun b s a hs => ?_, fun l v a hs => ?_⟩
  · exact (of_decide_eq_true (hm _ hs)).1
  · exact of_decide_eq_true (hm _ hs)
  · exact of_decide_eq_true (hm _ hs)
  · exact (of_decide_eq_true (hm _ hs)).1
  · exact of_decide_eq_true (hm _ hs)
  · obtain ⟨u, hu, hn⟩ := List.any_eq_true.mp (hm _ hs)
    cases u <;> simp [RType.isNull] at hn
    exact ⟨_, hu⟩
  · have := List.all_eq_true.mp (hm _ hs) f hf
    simp [plain_iff.mpr hp] at this
  · exact (of_decide_eq_true (hm _ hs)).2
  · exact (of_decide_eq_true (hm _ hs)).2

/-- The attributes of a field. -/
def called (s : String) : Attrs := { extra := [("name", .str s)] }

/-- The fields of a struct with a nested enum and another struct. -/
def cartFields : List RType := [
  .union [.null {}, .int (.int 32) (.bool false) (called "count")] {},
  .union [.null {}, .enum (.list [.str "OPEN", .str "PAID"]) { alias := .str "shop.Cart.State", extra := [("name", .str "state")] }] {},
  .list (.struct [.union [.null {}, .float (.int 64) (called "price")] {}]
    { alias := .str "shop.Item", extra := [("name", .str "items")] }) .none (.bool true) {},
  .map (.string (.int 2147483647) (.bool true) {}) (.bytes (.int 2147483647) (.bool true) {}) (called "tags"),
  .union [.null {}, .string (.int 2147483647) (.bool true) (called "card"), .int (.int 64) (.bool true) (called "points")]
    (called "payment")]

/-- The attributes of the struct. -/
def cartAttrs : Attrs := { alias := .str "shop.Cart" }

/-- The struct. -/
def cart : RType := .struct cartFields cartAttrs

/-- What is written. -/
def cartFile : List Elem := [.package "shop",
  .message "Item" [.field (.str "price") 1 "double" (some .optional)],
  .message "Cart" [.field (.str "count") 1 "uint32" (some .optional), .field (.str "state") 2 ".shop.Cart.State" (some .optional),
    .field (.str "items") 3 ".shop.Item" (some .repeated), .mapField (.str "tags") 4 "string" "bytes",
    .oneof (.str "payment") [.field (.str "card") 5 "string" .none, .field (.str "points") 6 "int64" .none],
    .enum "State" [(.str "OPEN", 0), (.str "PAID", 1)]]]

theorem cart_written : fromRecap (.struct cartFields cartAttrs) = .ok cartFile := by rfl

theorem cart_reached : AllReached cart "shop" := by
  have h1 : Alias cartAttrs "shop" "Cart" := alias_of _ _ _ rfl rfl
  have h2 : Alias { alias := .str "shop.Item", extra := [("name", .str "items")] } "shop" "Item" := alias_of _ _ _ rfl rfl
  have h3 : Alias { alias := .str "shop.Cart.State", extra := [("name", .str "state")] } ("shop" ++ "." ++ "Cart") "State" :=
    alias_of _ _ _ (by decide +kernel) rfl
  rintro u q n ⟨hs, hu⟩
  have hd : u ∈ (subs cart).filter definite :=
    List.mem_filter.mpr ⟨mem_subs hs, by rcases hu with ⟨_, _, rfl, -⟩ | ⟨_, _, rfl, -⟩ <;> rfl⟩
  have he : (subs cart).filter definite = [cart,
      .enum (.list [.str "OPEN", .str "PAID"]) { alias := .str "shop.Cart.State", extra := [("name", .str "state")] },
      .struct [.union [.null {}, .float (.int 64) (called "price")] {}]
        { alias := .str "shop.Item", extra := [("name", .str "items")] }] := by rfl
  rw [he] at hd
  simp only [List.mem_cons, List.not_mem_nil, or_false] at hd
  rcases hd with rfl | rfl | rfl
  · rcases hu with ⟨_, _, h, hu⟩ | ⟨_, _, h, hu⟩ <;> cases h
    obtain ⟨rfl, rfl⟩ := alias_unique hu h1
    exact .root
  · rcases hu with ⟨_, _, h, hu⟩ | ⟨_, _, h, hu⟩ <;> cases h
    obtain ⟨rfl, rfl⟩ := alias_unique hu h3
    exact .nested .root .refl h1
  · rcases hu with ⟨_, _, h, hu⟩ | ⟨_, _, h, hu⟩ <;> cases h
    obtain ⟨rfl, rfl⟩ := alias_unique hu h2
    exact .root

theorem cart_regular : Regular cart "shop" := regular_of cart_reached (by decide +kernel) (by decide +kernel)

/-- A value. -/
def aCart : Val := .struct [.int 4294967295, .str "PAID", .list [.struct [.float 64], .struct [.null]],
  .map [(.str "k", .bytes 3)], .int (-5)]

theorem aCart_held (reg : Registry) : HoldsIn reg cart aCart := by
  refine .struct rfl fun i f x hf hx => ?_
  match i with
  | 0 =>
    cases hf; cases hx
    exact .union (.tail _ (.head _)) (.leaf rfl (.int rfl (by simp [IntValue])))
  | 1 =>
    cases hf; cases hx
    exact .union (.tail _ (.head _)) (.leaf rfl (.enum (by simp)))
  | 2 =>
    cases hf; cases hx
    refine .list fun x hx => ?_
    simp only [List.mem_cons, List.not_mem_nil, or_false] at hx
    rcases hx with rfl | rfl
    all_goals
      refine .struct rfl fun i f x hf hx => ?_
      match i with
      | 0 =>
        cases hf; cases hx
        first
        | exact .union (.head _) (.leaf rfl .null)
        | exact .union (.tail _ (.head _)) (.leaf rfl (.float (by decide)))
      | _ + 1 => simp at hx
  | 3 =>
    cases hf; cases hx
    refine .map ?_ ?_
    · intro p hp
      cases List.mem_singleton.mp hp
      exact .leaf rfl (.string rfl (.inr ⟨_, rfl, by decide +kernel⟩))
    · intro p hp
      cases List.mem_singleton.mp hp
      exact .leaf rfl (.bytes rfl (.inr ⟨_, rfl, by decide⟩))
  | 4 =>
    cases hf; cases hx
    exact .union (.tail _ (.tail _ (.head _))) (.leaf rfl (.int rfl (by simp [IntValue])))
  | _ + 5 => simp at hx

example (reg : Registry) : Regular cart "shop" ∧ Literal cart ∧ Exact cart ∧ Closed cart ∧ HoldsIn reg cart aCart ∧
    Datum cartFile [cartFile] ".shop.Cart" aCart ∧
    ∀ x, Datum cartFile [cartFile] ".shop.Cart" x ↔ HoldsIn reg cart x := by
  obtain ⟨he, hl⟩ := exact_of (t := cart) (by decide +kernel)
  have hc : Closed cart := closed_of (by decide +kernel)
  have hp : .package "shop" ∈ cartFile := .head _
  exact ⟨cart_regular, hl, he, hc, aCart_held reg,
    C134_values_partial cart_written hp (s := "shop.Cart") rfl cart_regular hl hc (aCart_held reg),
    fun x => C135_only_partial cart_written hp (s := "shop.Cart") rfl cart_regular hl he hc⟩

/-- The fields of a struct with references to itself. -/
def postFields : List RType := [.union [.null {}, .string (.int 2147483647) (.bool true) (called "text")] {},
  .list (.proxy .none { alias := .str "blog.Post", extra := [("name", .str "replies")] }) .none (.bool true) {}]

/-- The attributes. -/
def postAttrs : Attrs := { alias := .str "blog.Post" }

/-- What is written. -/
def postFile : List Elem := [.package "blog", .message "Post" [.field (.str "text") 1 "string" (some .optional),
  .field (.str "replies") 2 ".blog.Post" (some .repeated)]]

theorem post_written : fromRecap (.struct postFields postAttrs) = .ok postFile := by rfl

theorem post_regular : Regular (.struct postFields postAttrs) "blog" := by
  refine regular_of ?_ (by decide +kernel) (by decide +kernel)
  have h1 : Alias postAttrs "blog" "Post" := alias_of _ _ _ rfl rfl
  rintro u q n ⟨hs, hu⟩
  have hd : u ∈ (subs (.struct postFields postAttrs)).filter definite :=
    List.mem_filter.mpr ⟨mem_subs hs, by rcases hu with ⟨_, _, rfl, -⟩ | ⟨_, _, rfl, -⟩ <;> rfl⟩
  have he : (subs (.struct postFields postAttrs)).filter definite = [.struct postFields postAttrs] := by rfl
  rw [he] at hd
  cases List.mem_singleton.mp hd
  rcases hu with ⟨_, _, h, hu⟩ | ⟨_, _, h, hu⟩ <;> cases h
  obtain ⟨rfl, rfl⟩ := alias_unique hu h1
  exact .root

example : Literal (.struct postFields postAttrs) ∧ Exact (.struct postFields postAttrs) ∧
    Datum postFile [postFile] ".blog.Post" (.struct [.str "a", .list [.struct [.null, .list []]]]) := by
  obtain ⟨he, hl⟩ := exact_of (t := .struct postFields postAttrs) (by decide +kernel)
  refine ⟨hl, he, ?_⟩
  have key : ∀ x, HoldsWith (Named postFile) (.struct postFields postAttrs) x → Datum postFile [postFile] ".blog.Post" x :=
    fun x hx => (C135_references_partial post_written (.head _) (s := "blog.Post") rfl post_regular hl he).mpr hx
  have step : ∀ y xs, (y = .null ∨ y = .str "a") → (∀ x ∈ xs, Datum postFile [postFile] ".blog.Post" x) →
      Datum postFile [postFile] ".blog.Post" (.struct [y, .list xs]) := by
    intro y xs hy hxs
    refine key _ (.struct rfl fun i f x hf hx => ?_)
    match i with
    | 0 =>
      cases hf; cases hx
      rcases hy with rfl | rfl
      · exact .union (.head _) (.leaf rfl .null)
      · exact .union (.tail _ (.head _)) (.leaf rfl (.string rfl (.inr ⟨_, rfl, by decide +kernel⟩)))
    | 1 =>
      cases hf; cases hx
      exact .list fun x hx => .reference (s := "blog.Post") rfl (hxs x hx)
    | _ + 2 => simp at hx
  refine step _ _ (.inr rfl) fun x hx => ?_
  cases List.mem_singleton.mp hx
  exact step _ _ (.inl rfl) (by simp)

/-! ### What is not kept -/

theorem full_single {p n s : String} {e e' : Elem} {scope : List (List Elem)} (hn : Spec.nameOf e = .none)
    (h : Full [.package p, .message n [e]] s e' scope) : e' = .message n [e] ∧ scope = [[.package p, .message n [e]]] := by
  induction h with
  | top _ hm hn => simp at hm; rcases hm with rfl | rfl <;> first | exact ⟨rfl, rfl⟩ | cases hn
  | noPackage h => exact absurd (.head _) (h p)
  | nested _ hm hn' ih =>
    cases ih.1
    cases List.mem_singleton.mp hm
    rw [hn] at hn'
    cases hn'

/-- A datum of a message with one field is one of the field. -/
theorem datum_single {p n s : String} {e : Elem} {x : Val} (hn : Spec.nameOf e = .none) (hf : fields [e] = [e])
    (h : Datum [.package p, .message n [e]] [[.package p, .message n [e]]] ("." ++ s) (.struct [x])) :
    Element [.package p, .message n [e]] [[e], [.package p, .message n [e]]] e x := by
  obtain ⟨e', scope, h1, h2⟩ := datum_absolute h
  obtain ⟨rfl, rfl⟩ := full_single hn h1
  cases h2 with
  | message _ h => exact h 0 e x (by rw [hf]; rfl) rfl

/-- A datum of the field makes one of the message. -/
theorem single_datum {p n : String} {e : Elem} {x : Val} (hf : fields [e] = [e])
    (h : Element [.package p, .message n [e]] [[e], [.package p, .message n [e]]] e x) :
    Datum [.package p, .message n [e]] [[.package p, .message n [e]]] ("." ++ (p ++ "." ++ n)) (.struct [x]) := by
  refine datum_of_full (.top (.head _) (.tail _ (.head _)) rfl) (.message (by rw [hf]; rfl) fun i e' y he hy => ?_)
  rw [hf] at he
  match i with
  | 0 => cases he; cases hy; exact h
  | _ + 1 => simp at hy

theorem holds_single {reg : Registry} {f : RType} {a : Attrs} {x : Val} (h : HoldsIn reg f x) :
    HoldsIn reg (.struct [f] a) (.struct [x]) := by
  refine .struct rfl fun i f' y hf hy => ?_
  match i with
  | 0 => cases hf; cases hy; exact h
  | _ + 1 => simp at hy

/-- The attributes of a struct. -/
def eventAttrs : Attrs := { alias := .str "log.Event" }

/-- **C134 is false**: points in time are written as integers. -/
theorem C134_timestamps_refuted (reg : Registry) : ∃ f file, fromRecap (.struct [f] eventAttrs) = .ok file ∧
    ∀ k, IntValue 64 true k → HoldsIn reg (.struct [f] eventAttrs) (.struct [.instant (k * 1000000)]) ∧
      ¬Datum file [file] ".log.Event" (.struct [.instant (k * 1000000)]) := by
  refine ⟨.int (.int 64) (.bool true)
    { logical := .str "build.recap.Timestamp", extra := [("name", .str "at"), ("unit", .str "millisecond")] }, _, rfl,
    fun k hk => ⟨?_, fun h => ?_⟩⟩
  · exact holds_single (.leaf rfl (.instant rfl rfl (by rfl) hk))
  · cases datum_single (s := "log.Event") rfl rfl h with
    | value _ h =>
      have := (scalar_datum (t := .int (.int 64) (.bool true) {}) trivial rfl).mp h
      have := (scalar_stored (refs := fun _ _ => True) (t := .int (.int 64) (.bool true) {}) trivial rfl).mp this
      cases this

/-- **C134 is false**: a list that can be null, as it is read of Protobuf, is written as an optional field. -/
theorem C134_optional_refuted (reg : Registry) : ∃ f file, fromRecap (.struct [f] eventAttrs) = .ok file ∧
    ∀ bs : List Bool, HoldsIn reg (.struct [f] eventAttrs) (.struct [.list (bs.map .bool)]) ∧
      ¬Datum file [file] ".log.Event" (.struct [.list (bs.map .bool)]) := by
  refine ⟨.union [.null {}, .list (.bool (called "flags")) .none (.bool true) {}] {}, _, rfl, fun bs => ⟨?_, fun h => ?_⟩⟩
  · refine holds_single (.union (.tail _ (.head _)) (.list fun x hx => ?_))
    obtain ⟨b, -, rfl⟩ := List.mem_map.mp hx
    exact .leaf rfl .bool
  · cases datum_single (s := "log.Event") rfl rfl h with
    | value _ h =>
      have := (scalar_datum (t := .bool {}) trivial rfl).mp h
      have := (scalar_stored (refs := fun _ _ => True) (t := .bool {}) trivial rfl).mp this
      cases this

/-- **C134 is false**: a list of lists is written as one list. -/
theorem C134_nested_refuted (reg : Registry) : ∃ f file, fromRecap (.struct [f] eventAttrs) = .ok file ∧
    ∀ (bs : List Bool) (bss : List (List Bool)),
      HoldsIn reg (.struct [f] eventAttrs) (.struct [.list ((bs :: bss).map fun bs => .list (bs.map .bool))]) ∧
      ¬Datum file [file] ".log.Event" (.struct [.list ((bs :: bss).map fun bs => .list (bs.map .bool))]) := by
  refine ⟨.list (.list (.bool (called "flags")) .none (.bool true) {}) .none (.bool true) {}, _, rfl,
    fun bs bss => ⟨?_, fun h => ?_⟩⟩
  · refine holds_single (.list fun x hx => ?_)
    obtain ⟨bs, -, rfl⟩ := List.mem_map.mp hx
    refine .list fun x hx => ?_
    obtain ⟨b, -, rfl⟩ := List.mem_map.mp hx
    exact .leaf rfl .bool
  · cases datum_single (s := "log.Event") rfl rfl h with
    | value hc => exact absurd rfl hc
    | repeated h =>
      have := (scalar_datum (t := .bool {}) trivial rfl).mp (h _ (.head _))
      have := (scalar_stored (refs := fun _ _ => True) (t := .bool {}) trivial rfl).mp this
      cases this

/-- **C134 is false**. -/
theorem C134_values_refuted : ¬ValuesWritten := by
  intro h
  obtain ⟨f, file, h1, h2⟩ := C134_timestamps_refuted []
  obtain ⟨h3, h4⟩ := h2 0 (by simp [IntValue])
  exact h4 (h _ _ _ _ "log.Event" _ h1 rfl h3)

theorem held_single {reg : Registry} {f : RType} {a : Attrs} {x : Val} (h : HoldsIn reg (.struct [f] a) (.struct [x])) :
    HoldsIn reg f x := holdsIn_field h 0 f x rfl rfl

/-- **C135 is false**: an integer with eight bits can be any integer with 32. -/
theorem C135_bits_refuted (reg : Registry) : ∃ f file, f = .int (.int 8) (.bool true) (called "n") ∧
    fromRecap (.struct [f] eventAttrs) = .ok file ∧ ∀ i, IntValue 32 true i → ¬IntValue 8 true i →
      Datum file [file] ".log.Event" (.struct [.int i]) ∧ ¬HoldsIn reg (.struct [f] eventAttrs) (.struct [.int i]) := by
  refine ⟨_, _, rfl, rfl, fun i h1 h2 => ⟨?_, fun h => ?_⟩⟩
  · exact single_datum (p := "log") (n := "Event") rfl (.value (by decide) (.scalar (.int32 (by decide) h1)))
  · cases held_single h with
    | leaf _ h =>
      cases h with
      | int _ h => exact h2 h

example : IntValue 32 true 128 ∧ ¬IntValue 8 true 128 := by simp [IntValue]

/-- **C135 is false**: a field that is not null can be absent. -/
theorem C135_absent_refuted (reg : Registry) : ∃ f file, fromRecap (.struct [f] eventAttrs) = .ok file ∧
    Datum file [file] ".log.Event" (.struct [.null]) ∧ ¬HoldsIn reg (.struct [f] eventAttrs) (.struct [.null]) := by
  refine ⟨.bool (called "flag"), _, rfl, single_datum (p := "log") (n := "Event") rfl (.absent (.inl rfl)), fun h => ?_⟩
  cases held_single h with
  | leaf _ h => cases h

/-- **C135 is false**. -/
theorem C135_only_refuted : ¬OnlyValuesWritten := by
  intro h
  obtain ⟨f, file, h1, h2, h3⟩ := C135_absent_refuted []
  exact h3 (h _ _ _ _ "log.Event" _ h1 rfl h2)

end Recap.ProtoData
