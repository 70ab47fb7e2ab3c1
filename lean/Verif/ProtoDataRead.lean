import Verif.ProtoDataSpec
import Verif.ProtobufReadThms
import Verif.AvroDataLemmas

/-!
# The data of a file that is read are values of the type

Lemmas for C133.
-/

set_option autoImplicit false

namespace Recap.ProtoData

open Protobuf
open Protobuf.Spec (Within label firstMessage scalar full Decls decls Reads FieldReads Members Fields innerAll inner Key)
open Avro.Spec (IntValue)
open AvroData (HoldsIn Same holds_withAttrs)
open Values (Val CommonEra)
open Recap.Spec (children Sub)

/-! ## Names -/

theorem sub_trans {a b c : RType} (h : Sub a b) (h' : Sub b c) : Sub a c := by
  induction h' with
  | refl => exact h
  | list _ ih => exact .list ih
  | key _ ih => exact .key ih
  | value _ ih => exact .value ih
  | field hm _ ih => exact .field hm ih
  | member hm _ ih => exact .member hm ih

/-- What follows the last dot is determined. -/
theorem last_part {a b m n : String} (hm : '.' ∉ m.toList) (hn : '.' ∉ n.toList)
    (h : a ++ "." ++ m = b ++ "." ++ n) : a = b ∧ m = n := by
  have h' := congrArg String.toList h
  simp only [String.toList_append] at h'
  have hd : ".".toList = ['.'] := by decide
  rw [hd] at h'
  have key : ∀ (xs ys us vs : List Char), '.' ∉ us → '.' ∉ vs → xs ++ '.' :: us = ys ++ '.' :: vs → xs = ys ∧ us = vs := by
    intro xs
    induction xs with
    | nil =>
      intro ys us vs hu hv h
      cases ys with
      | nil => simpa using h
      | cons y ys =>
        simp only [List.nil_append, List.cons_append, List.cons.injEq] at h
        exact absurd (by simp [h.2] : '.' ∈ us) hu
    | cons x xs ih =>
      intro ys us vs hu hv h
      cases ys with
      | nil =>
        simp only [List.nil_append, List.cons_append, List.cons.injEq] at h
        exact absurd (by simp [← h.2] : '.' ∈ vs) hv
      | cons y ys =>
        simp only [List.cons_append, List.cons.injEq] at h
        obtain ⟨h1, h2⟩ := ih ys us vs hu hv h.2
        exact ⟨by rw [h.1, h1], h2⟩
  obtain ⟨h1, h2⟩ := key a.toList b.toList m.toList n.toList hm hn (by simpa using h')
  exact ⟨String.toList_inj.mp h1, String.toList_inj.mp h2⟩

theorem scope_within {file : List Elem} {scope : List (List Elem)} (h : Scope file scope) :
    ∀ l ∈ scope, ∀ e ∈ l, Within e file := by
  induction h with
  | top => intro l hl e he; simp only [List.mem_singleton] at hl; subst hl; exact .here he
  | @message n es l rest hs hm ih =>
    intro l' hl e he
    rcases List.mem_cons.mp hl with rfl | hl
    · have hw := ih l List.mem_cons_self _ hm
      clear ih hs hl hm
      induction hw with
      | here h => exact .inside h (.here he)
      | inside h _ ih => exact .inside h ih
    · exact ih l' hl e he

theorem scope_drop {file : List Elem} {inner : List (List Elem)} {l : List Elem} {rest : List (List Elem)}
    (h : Scope file (inner ++ l :: rest)) : Scope file (l :: rest) := by
  induction inner with
  | nil => exact h
  | cons x inner ih =>
    cases inner with
    | nil =>
      cases h with
      | message h _ => exact h
    | cons y inner =>
      cases h with
      | message h _ => exact ih h

/-- What has a full name is in a scope, and the last part of its full name is its name. -/
theorem full_scope {file : List Elem} {s : String} {e : Elem} {scope : List (List Elem)} (h : Full file s e scope) :
    ∃ l rest m, scope = l :: rest ∧ Scope file (l :: rest) ∧ e ∈ l ∧ Spec.nameOf e = some m ∧
      (s = m ∨ ∃ p, s = p ++ "." ++ m) := by
  induction h with
  | top _ he hn => exact ⟨_, _, _, rfl, .top, he, hn, .inr ⟨_, rfl⟩⟩
  | noPackage _ he hn => exact ⟨_, _, _, rfl, .top, he, hn, .inl rfl⟩
  | nested _ he hn ih =>
    obtain ⟨l, rest, m, rfl, h1, h2, -, -⟩ := ih
    exact ⟨_, _, _, rfl, .message h1 h2, he, hn, .inr ⟨_, rfl⟩⟩

/-- What a name means is in a scope, and the last part of the name is its name. -/
theorem finds_scope {file : List Elem} {scope scope' : List (List Elem)} {s : String} {e : Elem}
    (h : Finds file scope s e scope') (hs : Scope file scope) :
    ∃ l rest m, scope' = l :: rest ∧ Scope file (l :: rest) ∧ e ∈ l ∧ Spec.nameOf e = some m ∧
      (s = m ∨ ∃ p, s = p ++ "." ++ m) := by
  cases h with
  | simple _ _ he hn => exact ⟨_, _, _, rfl, scope_drop hs, he, hn, .inl rfl⟩
  | full _ _ h => exact full_scope h
  | absolute h =>
    obtain ⟨l, rest, m, h1, h2, h3, h4, h5⟩ := full_scope h
    refine ⟨l, rest, m, h1, h2, h3, h4, .inr ?_⟩
    rcases h5 with rfl | ⟨p, rfl⟩
    · exact ⟨"", by simp⟩
    · exact ⟨"." ++ p, by simp [String.append_assoc]⟩

theorem mem_of_filterMap_nodup {α β : Type} {f : α → Option β} {l : List α} (h : (l.filterMap f).Nodup) {x y : α} {b : β}
    (hx : x ∈ l) (hy : y ∈ l) (hfx : f x = some b) (hfy : f y = some b) : x = y := by
  induction l with
  | nil => simp at hx
  | cons a l ih =>
    have hin : ∀ z ∈ l, f z = some b → b ∈ l.filterMap f := fun z hz h => List.mem_filterMap.mpr ⟨z, hz, h⟩
    rcases List.mem_cons.mp hx with rfl | hx' <;> rcases List.mem_cons.mp hy with rfl | hy'
    · rfl
    · rw [List.filterMap_cons_some hfx] at h
      exact absurd (hin y hy' hfy) (List.nodup_cons.mp h).1
    · rw [List.filterMap_cons_some hfy] at h
      exact absurd (hin x hx' hfx) (List.nodup_cons.mp h).1
    · refine ih ?_ hx' hy'
      cases hfa : f a with
      | none => rwa [List.filterMap_cons_none hfa] at h
      | some c => rw [List.filterMap_cons_some hfa] at h; exact (List.nodup_cons.mp h).2

theorem mem_innerAll {e : Elem} : ∀ {es : List Elem}, e ∈ innerAll es ↔ ∃ x ∈ es, e ∈ inner x
  | [] => by simp [innerAll]
  | x :: es => by rw [innerAll, List.mem_append, mem_innerAll]; simp

theorem within_inner {e : Elem} {n : String} (hn : Spec.nameOf e = some n) {es : List Elem} (h : Within e es) :
    e ∈ innerAll es := by
  induction h with
  | here h =>
    refine mem_innerAll.mpr ⟨e, h, ?_⟩
    cases e <;> simp [Spec.nameOf] at hn <;> simp [inner]
  | inside h _ ih => exact mem_innerAll.mpr ⟨_, h, by rw [inner]; exact List.mem_append_left _ ih⟩

/-- The names in a file are identifiers, each declared once. -/
structure Unique (file : List Elem) : Prop where
  identifiers : Identifiers file
  nodup : ((innerAll file).filterMap Spec.nameOf).Nodup

theorem unique_eq {file : List Elem} (hu : Unique file) {e e' : Elem} {n : String} (h : Within e file) (h' : Within e' file)
    (hn : Spec.nameOf e = some n) (hn' : Spec.nameOf e' = some n) : e = e' :=
  mem_of_filterMap_nodup hu.nodup (within_inner hn h) (within_inner hn' h') hn hn'

/-- What a name means is what the converter takes for it. -/
theorem finds_decl {file : List Elem} {scope scope' : List (List Elem)} {s ns n : String} {e e' : Elem}
    (hu : Unique file) (h : Finds file scope s e scope') (hs : Scope file scope) (hd : decls ns file (full ns s) n e') :
    e' = e ∧ n = ns ∧ ∃ l rest m, scope' = l :: rest ∧ Scope file (l :: rest) ∧ e ∈ l ∧ Spec.nameOf e = some m ∧
      full ns s = ns ++ "." ++ m := by
  obtain ⟨l, rest, m, h1, h2, h3, h4, h5⟩ := finds_scope h hs
  obtain ⟨rfl, hw, m', h6, h7⟩ := hd
  have hw' := scope_within h2 l List.mem_cons_self e h3
  have hm := hu.identifiers e m hw' h4
  have hm' := hu.identifiers e' m' hw h6
  have : m = m' := by
    unfold full at h7
    rcases h5 with rfl | ⟨p, rfl⟩
    · rw [if_neg hm] at h7
      exact (last_part hm hm' h7).2
    · rw [if_pos (by simp)] at h7
      exact (last_part hm hm' h7).2
  subst this
  exact ⟨unique_eq hu hw hw' h6 h4, rfl, l, rest, m, h1, h2, h3, h4, h7⟩

/-! ## Types of Protobuf -/

/-- The attributes that the converter adds. -/
def Added (x : Dict) : Prop := x = [] ∨ ∃ v, x = [("name", v)]

theorem same_added {a : Attrs} {x : Dict} (hx : Added x) : Same a { a with extra := Dict.update a.extra x } := by
  refine ⟨rfl, fun k hk => ?_⟩
  rcases hx with rfl | ⟨v, rfl⟩
  · rfl
  · simp only [Dict.update, List.foldl]
    simp only [List.mem_cons, List.not_mem_nil, or_false] at hk
    rcases hk with rfl | rfl | rfl <;> exact Dict.get?_set_ne _ _ (by decide)

theorem scalar_holds {s : String} {x : Val} (h : Scalar s x) (hn : Near x) :
    ∃ t, Spec.scalar s = some t ∧ children t = [] ∧ Values.Holds t x := by
  cases h with
  | int32 hs hi =>
    refine ⟨.int (.int 32) (.bool true) {}, ?_, rfl, .int rfl hi⟩
    simp only [List.mem_cons, List.not_mem_nil, or_false] at hs
    rcases hs with rfl | rfl | rfl <;> decide +kernel
  | int64 hs hi =>
    refine ⟨.int (.int 64) (.bool true) {}, ?_, rfl, .int rfl hi⟩
    simp only [List.mem_cons, List.not_mem_nil, or_false] at hs
    rcases hs with rfl | rfl | rfl <;> decide +kernel
  | uint32 hs hi =>
    refine ⟨.int (.int 32) (.bool false) {}, ?_, rfl, .int rfl hi⟩
    simp only [List.mem_cons, List.not_mem_nil, or_false] at hs
    rcases hs with rfl | rfl <;> decide +kernel
  | uint64 hs hi =>
    refine ⟨.int (.int 64) (.bool false) {}, ?_, rfl, .int rfl hi⟩
    simp only [List.mem_cons, List.not_mem_nil, or_false] at hs
    rcases hs with rfl | rfl <;> decide +kernel
  | float h => exact ⟨.float (.int 32) {}, by decide +kernel, rfl, .float h⟩
  | double h => exact ⟨.float (.int 64) {}, by decide +kernel, rfl, .float h⟩
  | bool => exact ⟨.bool {}, by decide +kernel, rfl, .bool⟩
  | string h => exact ⟨.string (.int (2 ^ 31)) (.bool true) {}, by decide +kernel, rfl, .string rfl (.inr ⟨_, rfl, by omega⟩)⟩
  | bytes h => exact ⟨.bytes (.int (2 ^ 31)) (.bool true) {}, by decide +kernel, rfl, .bytes rfl (.inr ⟨_, rfl, by omega⟩)⟩
  | @timestamp k h =>
    refine ⟨.int (.int 64) (.bool true)
      { logical := .str "build.recap.Timestamp", extra := [("unit", .str "nanosecond"), ("timezone", .str "UTC")] },
      by decide +kernel, rfl, ?_⟩
    have := Values.Holds.instant (n := 64) (a := { logical := .str "build.recap.Timestamp", extra := [("unit", .str "nanosecond"), ("timezone", .str "UTC")] })
      (u := "nanosecond") (per := 1) (k := k) rfl rfl rfl (hn k .refl)
    rwa [Int.mul_one] at this
  | null => exact ⟨.null {}, by decide +kernel, rfl, .null⟩

/-! ## Fields -/

theorem fields_each {D : Decls} {ns : String} {es : List Elem} {fs : List RType} :
    Fields D ns es fs → (fields es).length = fs.length ∧
      ∀ (i : Nat) f, fs[i]? = some f → ∃ e, (fields es)[i]? = some e ∧ FieldReads D ns e f := by
  induction es generalizing fs with
  | nil => intro h; cases h; exact ⟨rfl, by simp⟩
  | cons e es ih =>
    intro h
    cases h with
    | field h1 h2 =>
      obtain ⟨h3, h4⟩ := ih h2
      have hl : fields (e :: es) = e :: fields es := by
        cases h1 <;> rfl
      rw [hl]
      refine ⟨by simp [h3], fun i f hf => ?_⟩
      cases i with
      | zero =>
        simp only [List.getElem?_cons_zero, Option.some.injEq] at hf
        subst hf
        exact ⟨e, rfl, h1⟩
      | succ i => simpa using h4 i f (by simpa using hf)
    | skip h1 h2 =>
      have hl : fields (e :: es) = fields es := by
        simp [fields, h1]
      rw [hl]
      exact ih h2

theorem members_mem {D : Decls} {ns : String} {es : List Elem} {ts : List RType} (h : Members D ns es ts) {m : PyVal} {k : Int}
    {s : String} {card : Option Card} (hm : .field m k s card ∈ es) :
    ∃ t ∈ ts, Reads D ns s [("name", m)] t := Protobuf.Members.mem hm h

theorem near_part {x y : Val} (h : Near x) (hp : ∀ z, Part z y → Part z x) : Near y := fun ns hn => h ns (hp _ hn)

/-- The context in which a type is read: the file and its package, and what is read. -/
structure Context (ns : String) (file : List Elem) (root : RType) : Prop where
  unique : Unique file
  /-- References are to what the file declares. -/
  known : ∀ r a, Sub (.proxy r a) root → ∀ s, a.alias = .str s → ∃ n e, decls ns file s n e

theorem enum_held {ns : String} {file : List Elem} {scope : List (List Elem)} {n : String} {values : List (PyVal × Int)}
    {a : Attrs} {x : Val} (h : Declared file scope (.enum n values) x) :
    HoldsWith (Means ns file) (.enum (.list (values.map (·.1))) a) x := by
  cases h with
  | enum h => exact .leaf rfl (.enum (List.mem_map.mpr ⟨_, h, rfl⟩))

mutual
theorem datum_held {ns : String} {file : List Elem} {root : RType} (hc : Context ns file root)
    {scope : List (List Elem)} {s : String} {x : Val} {ex : Dict} {t : RType} (h : Datum file scope s x)
    (hs : Scope file scope) (hr : Reads (decls ns file) ns s ex t) (hex : Added ex) (hsub : Sub t root) (hn : Near x) :
    HoldsWith (Means ns file) t x :=
  match h with
  | .scalar h => by
    obtain ⟨u, h1, h2, h3⟩ := scalar_holds h hn
    cases hr with
    | scalar h4 =>
      rw [h1] at h4
      cases h4
      exact .leaf (by rw [AvroData.children_withAttrs', h2]) (holds_withAttrs h3 (same_added hex))
    | reference h4 => rw [h1] at h4; cases h4
    | message h4 => rw [h1] at h4; cases h4
    | enum h4 => rw [h1] at h4; cases h4
  | .other (e := e) (scope' := scope') h0 hf hd => by
    cases hr with
    | scalar h4 => rw [h0] at h4; cases h4
    | reference _ =>
      obtain ⟨n, e', hd'⟩ := hc.known _ _ hsub _ rfl
      obtain ⟨-, -, l, rest, m, hsc, h1, h2, h3, h4⟩ := finds_decl hc.unique hf hs hd'
      exact .reference rfl ⟨_, m, l, rest, h1, h2, h3, h4, hsc ▸ hd⟩
    | message _ hd' hfs =>
      obtain ⟨he, hns, l, rest, m, hsc, h1, h2, h3, h4⟩ := finds_decl hc.unique hf hs hd'
      rw [hns] at hfs
      exact message_held hc hd he.symm hsc h1 (he ▸ h2) hfs hsub hn
    | enum _ hd' =>
      obtain ⟨he, -⟩ := finds_decl hc.unique hf hs hd'
      rw [← he] at hd
      exact enum_held hd
theorem message_held {ns : String} {file : List Elem} {root : RType} (hc : Context ns file root)
    {l : List Elem} {rest scope : List (List Elem)} {n : String} {e : Elem} {es : List Elem} {x : Val} {a : Attrs} {fs : List RType}
    (h : Declared file scope e x) (he : e = .message n es) (hsc : scope = l :: rest) (hs : Scope file (l :: rest))
    (hm : .message n es ∈ l)
    (hr : Fields (decls ns file) ns es fs) (hsub : Sub (.struct fs a) root) (hn : Near x) :
    HoldsWith (Means ns file) (.struct fs a) x :=
  match h with
  | .enum _ => by cases he
  | .message (n := n') (es := es') hl hx => by
    have hes : es' = es := by cases he; rfl
    obtain ⟨h1, h2⟩ := fields_each hr
    refine .struct (h1.symm.trans (hes ▸ hl)) fun i f x hf hxi => ?_
    obtain ⟨e, h3, h4⟩ := h2 i f hf
    exact element_held hc (hx i e x (by rw [hes]; exact h3) hxi) (by rw [hes, hsc]; exact .message hs hm) h4
      (sub_trans (.field (List.mem_of_getElem? hf) .refl) hsub)
      (near_part hn fun z hz => .struct (List.mem_of_getElem? hxi) hz)
theorem element_held {ns : String} {file : List Elem} {root : RType} (hc : Context ns file root)
    {scope : List (List Elem)} {e : Elem} {x : Val} {t : RType} (h : Element file scope e x)
    (hs : Scope file scope) (hr : FieldReads (decls ns file) ns e t) (hsub : Sub t root) (hn : Near x) :
    HoldsWith (Means ns file) t x :=
  match h with
  | .value hcard hd => by
    cases hr with
    | required hr => exact datum_held hc hd hs hr (.inr ⟨_, rfl⟩) hsub hn
    | optional _ _ hr =>
      exact .union (List.mem_cons_of_mem _ List.mem_cons_self)
        (datum_held hc hd hs hr (.inl rfl) (sub_trans (.member (List.mem_cons_of_mem _ List.mem_cons_self) .refl) hsub) hn)
    | null _ =>
      have : x = .null := by
        cases hd with
        | scalar h =>
          generalize hq : "google.protobuf.NullValue" = q at h
          cases h <;> first | rfl | (exact absurd hq (by decide)) | (subst hq; simp_all)
        | other h => exact absurd h (by decide +kernel)
      subst this
      exact .leaf rfl .null
    | repeated _ => exact absurd rfl hcard
  | .absent hcard => by
    cases hr with
    | required => simp at hcard
    | optional => exact .union List.mem_cons_self (.leaf rfl .null)
    | null => exact .leaf rfl .null
    | repeated => simp at hcard
  | .repeated hd => by
    cases hr with
    | optional hcard => simp at hcard
    | null hcard => simp at hcard
    | repeated hr =>
      refine .union (List.mem_cons_of_mem _ List.mem_cons_self) (.list fun y hy => ?_)
      exact datum_held hc (hd y hy) hs hr (.inl rfl)
        (sub_trans (.list .refl) (sub_trans (.member (List.mem_cons_of_mem _ List.mem_cons_self) .refl) hsub))
        (near_part hn fun z hz => .list hy hz)
  | .map hk hv => by
    cases hr with
    | map h1 h2 hr =>
      have hm : Sub (.map _ _ {}) root := sub_trans (.member (List.mem_cons_of_mem _ List.mem_cons_self) .refl) hsub
      refine .union (List.mem_cons_of_mem _ List.mem_cons_self) (.map (fun p hp => ?_) fun p hp => ?_)
      · have := datum_held hc (ex := []) (hk p hp) hs (.scalar h1) (.inl rfl) (t := _)
          (by simp only [Dict.update, List.foldl]; rw [withAttrs_attrs]; exact sub_trans (.key .refl) hm)
          (near_part hn fun z hz => .key hp hz)
        simp only [Dict.update, List.foldl] at this
        rwa [withAttrs_attrs] at this
      · exact datum_held hc (hv p hp) hs hr (.inl rfl) (sub_trans (.value .refl) hm)
          (near_part hn fun z hz => .value hp hz)
  | .unset => by
    cases hr with
    | oneof => exact .union List.mem_cons_self (.leaf rfl .null)
  | .oneof hm hd => by
    cases hr with
    | oneof hr =>
      obtain ⟨t, ht, hr⟩ := members_mem hr hm
      exact .union (List.mem_cons_of_mem _ ht) (datum_held hc hd hs hr (.inr ⟨_, rfl⟩)
        (sub_trans (.member (List.mem_cons_of_mem _ ht) .refl) hsub) hn)
end

end Recap.ProtoData
