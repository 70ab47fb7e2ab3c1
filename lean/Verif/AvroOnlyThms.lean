import Verif.AvroOnlyRead2
import Verif.AvroDataThms

/-!
# Values of the types that are read are Avro data (C136)
-/

set_option autoImplicit false

namespace Recap.AvroData

open Avro.Spec (IntValue Header target Other HasType Around root)
open Values (Val)
open Recap.Avro (toRecap)

theorem loose_read {v : PyVal} {ns : Option String} {env : Env} {reg reg' : Registry} {t : RType} {x : Val}
    (h : Ordered [] ns v env) (hr : toRecap v ns reg = .ok (t, reg')) (hx : HoldsIn reg' t x) : Loose env ns v x := by
  unfold toRecap at hr
  obtain ⟨⟨t', reg1⟩, hp, hr⟩ := ok_bind hr
  have : t' = t ∧ reg1 = reg' := by
    cases t' <;> simp [pure, Except.pure] at hr
    exact hr
  obtain ⟨rfl, rfl⟩ := this
  exact ((only_all (all := env) h).1 _ _ _ _ [] hp (by simp) (fun s q w hl => by simp [lookup] at hl)).2.2.2 x []
    (by rwa [List.append_nil])

/-- **C136** (partial): the values of what is read of an accepted schema are exactly its data and what
becomes of them if byte strings in them are shortened, if every name in the schema is defined completely
before it is used, every logical type applies to its schema and is not that of a field, and no type with
a logical type is referred to.

Missing: a `fixed` is read as any byte string up to its size (`C136_fixed_refuted`); logical types that do
not apply (`C136_annotation_refuted`); names of fields are taken for names of types (`C136_name_refuted`). -/
theorem C136_exactly_partial {v : PyVal} {ns : Option String} {env : Env} (h : Ordered [] ns v env)
    {reg reg' : Registry} {t : RType} (hr : toRecap v ns reg = .ok (t, reg')) (x : Val) :
    HoldsIn reg' t x ↔ ∃ y, Shorter x y ∧ Datum env ns v y :=
  ⟨fun hx => loose_shorter (loose_read h hr hx), fun ⟨_, h1, h2⟩ =>
    holdsIn_shorter ((C128_data_partial h).2 _ _ _ _ hr h2) _ h1⟩

/-- **C136** (partial): if, moreover, there is no `fixed` in the schema, every value of what is read is a
datum of the schema. -/
theorem C136_values_partial {v : PyVal} {ns : Option String} {env₀ : Env} (h : Ordered [] ns v env₀) (hf : NoFixed ns v)
    {reg reg' : Registry} {t : RType} {env : Env} {x : Val} (he : ∀ s ns' w, Defines ns v s ns' w → lookup env s = some (ns', w))
    (hr : toRecap v ns reg = .ok (t, reg')) (hx : HoldsIn reg' t x) : Datum env ns v x :=
  datum_mono (fun s e hl => he s e.1 e.2 ((C128_data_partial h).1 s e.1 e.2 hl))
    (loose_datum hf (fun s ns' w hl => ((C128_data_partial h).1 s ns' w hl).1) (loose_read h hr hx) .here)

instance (d : Dict) (s : String) : Decidable (Is d s) := inferInstanceAs (Decidable (_ = _))

theorem noFixed_order : NoFixed .none (.dict order) := by
  intro ns' d h
  generalize hv : PyVal.dict order = v at h
  generalize hw : PyVal.dict d = w at h
  cases h with
  | here => subst hv; cases hw; intro h; exact absurd h (by decide)
  | member => cases hv
  | items h => cases hv; exact absurd h (by decide)
  | values h => cases hv; exact absurd h (by decide)
  | @field _ _ _ q vs ws u _ _ _ h1 h2 h3 h4 h =>
    cases hv
    cases h2
    have : ws = [.str "long", .dict state, .list [.str "null", .str "State"], .str "State", .dict money,
        .dict [("type", .str "array"), ("items", .str "string")]] :=
      fieldTypes_eq h3 (.cons rfl <| .cons rfl <| .cons rfl <| .cons rfl <| .cons rfl <| .cons rfl .nil)
    subst this
    have name : ∀ {s : String} {q ns'} {w : PyVal}, Inside q (.str s) ns' w → w = .str s := by
      intro s q ns' w h
      cases h with
      | here => rfl
    have leaf : ∀ {e : Dict} {q ns'} {w : PyVal}, Inside q (.dict e) ns' w → ¬Is e "array" → ¬Is e "map" →
        ¬Is e "record" → w = .dict e := by
      intro e q ns' w h i1 i2 i3
      cases h with
      | here => rfl
      | items i => exact absurd i i1
      | values i => exact absurd i i2
      | field i => exact absurd i i3
    simp only [List.mem_cons, List.not_mem_nil, or_false] at h4
    rcases h4 with rfl | rfl | rfl | rfl | rfl | rfl
    · cases hw.trans (name h)
    · cases hw.trans (leaf h (by decide) (by decide) (by decide)); intro h; exact absurd h (by decide)
    · cases h with
      | here => cases hw
      | member hm h =>
        simp only [List.mem_cons, List.not_mem_nil, or_false] at hm
        rcases hm with rfl | rfl <;> cases hw.trans (name h)
    · cases hw.trans (name h)
    · cases hw.trans (leaf h (by decide) (by decide) (by decide)); intro h; exact absurd h (by decide)
    · cases h with
      | here => cases hw; intro h; exact absurd h (by decide)
      | items _ h2 h => cases h2; cases hw.trans (name h)
      | values h => exact absurd h (by decide)
      | field h => exact absurd h (by decide)

/-- C136 of the values of what is read of `order`. -/
example : ∃ t reg', toRecap (.dict order) .none newRegistry = .ok (t, reg') ∧
    ∀ x, HoldsIn reg' t x ↔ Datum orderEnv .none (.dict order) x := by
  obtain ⟨t, reg', h⟩ : ∃ t reg', toRecap (.dict order) .none newRegistry = .ok (t, reg') := ⟨_, _, rfl⟩
  exact ⟨t, reg', h, fun x => ⟨fun hx => loose_datum noFixed_order
    (fun s ns' w hl => ((C128_data_partial ordered_order).1 s ns' w hl).1) (loose_read ordered_order h hx) .here,
    (C128_data_partial ordered_order).2 _ _ _ _ h⟩⟩

/-- C136 of a struct that is not a value. -/
example : ∃ t reg', toRecap (.dict order) .none newRegistry = .ok (t, reg') ∧
    Shorter (.struct [.bytes 3]) (.struct [.bytes 4]) ∧
    ¬HoldsIn reg' t (.struct [.int 7, .str "LOST", .null, .str "OLD", .decimal 1999 2, .list []]) := by
  obtain ⟨t, reg', hr⟩ : ∃ t reg', toRecap (.dict order) .none newRegistry = .ok (t, reg') := ⟨_, _, rfl⟩
  refine ⟨t, reg', hr, .struct rfl fun i x y hx hy => ?_, fun h => ?_⟩
  · match i with
    | 0 => simp at hx hy; subst hx hy; exact .bytes (by decide)
    | _ + 1 => simp at hx
  · obtain ⟨y, h1, h2⟩ := (C136_exactly_partial ordered_order hr _).mp h
    obtain ⟨xs, rfl, hl, hxs⟩ := datum_record h2 ⟨rfl, rfl⟩ header_order rfl
      (.cons (x := "id") rfl (by decide) rfl ⟨rfl, rfl⟩ <| .cons (x := "state") rfl (by decide) rfl ⟨rfl, rfl⟩ <|
      .cons (x := "before") rfl (by decide) rfl ⟨rfl, rfl⟩ <| .cons (x := "last") rfl (by decide) rfl ⟨rfl, rfl⟩ <|
      .cons (x := "paid") rfl (by decide) rfl ⟨rfl, rfl⟩ <| .cons (x := "notes") rfl (by decide) rfl ⟨rfl, rfl⟩ .nil)
    have hb : xs[1]? = some (.str "LOST") := by
      cases h1 with
      | same => rfl
      | struct k1 k2 =>
        have hlen : 1 < xs.length := by simp at hl; omega
        have := k2 1 (.str "LOST") xs[1] rfl (List.getElem?_eq_getElem hlen)
        rw [List.getElem?_eq_getElem hlen]
        generalize xs[1] = z at this
        cases this
        rfl
    obtain ⟨s, hs, hm⟩ := datum_enum (hxs 1 _ _ rfl hb) ⟨rfl, rfl⟩ rfl
    cases hs
    simp at hm

/-! ## Refutations -/

/-- A checksum of 16 bytes. -/
def checksum : Dict := [("type", .str "fixed"), ("name", .str "MD5"), ("size", .int 16)]

/-- A record with a checksum. -/
def summed : PyVal :=
  .dict [("type", .str "record"), ("name", .str "R"), ("fields", .list [.dict [("name", .str "sum"), ("type", .dict checksum)]])]

/-- **C136** refuted: a `fixed` is read as byte strings of up to its size, but all its data have this size. -/
theorem C136_fixed_refuted : ∃ t reg', toRecap summed (some "app") newRegistry = .ok (t, reg') ∧
    ∀ n, n < 16 → HoldsIn reg' t (.struct [.bytes n]) ∧ ∀ env, ¬Datum env (some "app") summed (.struct [.bytes n]) := by
  refine ⟨_, _, rfl, fun n hn => ⟨?_, fun env h => ?_⟩⟩
  · refine .struct rfl fun i f x hf hx => ?_
    match i with
    | 0 => simp at hf hx; subst hf hx; exact .leaf rfl (.bytes rfl (.inr ⟨_, rfl, by omega⟩))
    | _ + 1 => simp at hf
  · obtain ⟨xs, hx, -, h⟩ := datum_record h ⟨rfl, rfl⟩
      (.short (q := some "app") (x := "R") (.inherited rfl) rfl (by decide)) rfl
      (.cons (x := "sum") rfl (by decide) rfl ⟨rfl, rfl⟩ .nil)
    cases hx
    cases datum_fixed (n := 16) (h 0 _ _ rfl rfl) ⟨rfl, rfl⟩ rfl
    omega

/-- **C136** refuted: points in time are values of what is read of a string with a logical type that has to be
ignored. -/
theorem C136_annotation_refuted : ∃ t reg', toRecap annotated (some "app") newRegistry = .ok (t, reg') ∧
    ∀ k, IntValue 64 true k → HoldsIn reg' t (.struct [.instant (k * 1000000)]) ∧
      ∀ env, ¬Datum env (some "app") annotated (.struct [.instant (k * 1000000)]) := by
  refine ⟨_, _, rfl, fun k hk => ⟨?_, fun env h => ?_⟩⟩
  · refine .struct rfl fun i f x hf hx => ?_
    match i with
    | 0 => simp at hf hx; subst hf hx; exact .leaf rfl (.instant (u := "millisecond") rfl rfl rfl hk)
    | _ + 1 => simp at hf
  · obtain ⟨xs, hx, -, h⟩ := datum_record h ⟨rfl, rfl⟩
      (.short (q := some "app") (x := "R") (.inherited rfl) rfl (by decide)) rfl
      (.cons (x := "at") rfl (by decide) rfl ⟨rfl, rfl⟩ .nil)
    cases hx
    have hd := h 0 _ _ rfl rfl
    generalize hy : Val.instant (k * 1000000) = y at hd
    cases hd with
    | primitive _ _ h => cases h <;> cases hy
    | logical h1 h2 h3 =>
      simp [Dict.get?] at h1
      subst h1
      generalize he : ("timestamp-millis" : String) = l at h2
      cases h2 <;> simp_all [Is, Dict.get?]
    | fixed => cases hy
    | enum => cases hy
    | array => cases hy
    | map => cases hy
    | record => cases hy

/-- A record whose second field has, instead of a type, the name of the first. -/
def borrowed : Dict :=
  [("type", .str "record"), ("name", .str "R"), ("fields", .list [
    .dict [("name", .str "id"), ("type", .str "long")], .dict [("name", .str "other"), ("type", .str "id")]])]

theorem header_borrowed : Header (some "app") borrowed (some ("app.R", "R")) (some "app") :=
  .short (q := some "app") (x := "R") (.inherited rfl) rfl (by decide)

/-- The definition in it. -/
def borrowedEnv : Env := [("app.R", some "app", .dict borrowed)]

/-- **C136** refuted: the name of a field is taken for the name of a type.  (No type has this name, so the
schema has no data.) -/
theorem C136_name_refuted : ∃ t reg', toRecap (.dict borrowed) (some "app") newRegistry = .ok (t, reg') ∧
    ∀ i j, IntValue 64 true i → IntValue 64 true j → HoldsIn reg' t (.struct [.int i, .int j]) ∧
      ∀ x, ¬Datum borrowedEnv (some "app") (.dict borrowed) x := by
  refine ⟨_, _, rfl, fun i j hi hj => ⟨?_, fun x h => ?_⟩⟩
  · refine .struct rfl fun k f x hf hx => ?_
    match k with
    | 0 => simp at hf hx; subst hf hx; exact .leaf rfl (.int rfl hi)
    | 1 =>
      simp at hf hx
      subst hf hx
      exact .reference rfl (.leaf rfl (.int rfl hj))
    | _ + 2 => simp at hf
  · obtain ⟨xs, -, hl, h⟩ := datum_record h ⟨rfl, rfl⟩ header_borrowed rfl
      (.cons (x := "id") rfl (by decide) rfl ⟨rfl, rfl⟩ <| .cons (x := "other") rfl (by decide) rfl ⟨rfl, rfl⟩ .nil)
    have hlen : 1 < xs.length := by simp at hl; omega
    have h := h 1 _ _ rfl (List.getElem?_eq_getElem hlen)
    generalize hs : ("id" : String) = s at h
    generalize xs[1] = y at h
    cases h with
    | primitiveName h => cases h <;> exact absurd hs (by decide)
    | reference _ h => subst hs; exact absurd h (by rw [show lookup borrowedEnv (target (some "app") "id") = .none from rfl]; simp)

/-- **C136** refuted. -/
theorem C136_values_refuted : ¬OnlyDataHeld := by
  intro h
  obtain ⟨t, reg', h1, h2⟩ := C136_fixed_refuted
  obtain ⟨h3, h4⟩ := h2 3 (by decide)
  have hh : Header (some "app") [("type", .str "record"), ("name", .str "R"), ("fields", .list [
    .dict [("name", .str "sum"), ("type", .dict checksum)]])] (some ("app.R", "R")) (some "app") :=
    .short (q := some "app") (x := "R") (.inherited rfl) rfl (by decide)
  refine h4 _ (h _ _ _ _ _ [("app.R", some "app", summed), ("app.MD5", some "app", .dict checksum)] _ ?_ h1 h3)
  intro s ns' w ⟨hi, d, x, q, hw, hd, _⟩
  subst hw
  have : (ns' = some "app" ∧ PyVal.dict d = summed) ∨ (ns' = some "app" ∧ d = checksum) := by
    generalize hw : PyVal.dict d = w at hi
    generalize hv : summed = v at hi
    cases hi with
    | here => exact .inl ⟨rfl, rfl⟩
    | member => cases hv
    | items h => cases hv; exact absurd h (by decide)
    | values h => cases hv; exact absurd h (by decide)
    | @field _ _ _ q' vs ws u _ _ _ g1 g2 g3 g4 g5 =>
      cases hv
      cases g2
      cases header_ns g1 hh
      cases fieldTypes_eq g3 (.cons rfl .nil)
      simp at g4
      subst g4
      cases g5 with
      | here => cases hw; exact .inr ⟨rfl, rfl⟩
      | items h => exact absurd h (by decide)
      | values h => exact absurd h (by decide)
      | field h => exact absurd h (by decide)
  have same : ∀ {ns q q' : Option String} {d : Dict} {a b : String × String}, Header ns d (some a) q →
      Header ns d (some b) q' → a.1 = b.1 := by
    intro ns q q' d a b h h'
    have := (Recap.Avro.header_eq h).symm.trans (Recap.Avro.header_eq h')
    simp only [Except.ok.injEq, Prod.mk.injEq, Avro.Spec.alias, PyVal.str.injEq] at this
    exact this.2.1
  rcases this with ⟨rfl, hd'⟩ | ⟨rfl, rfl⟩
  · cases hd'
    rw [show s = "app.R" from same hd hh]
    rfl
  · rw [show s = "app.MD5" from same hd (.short (q := some "app") (x := "MD5") (.inherited rfl) rfl (by decide))]
    rfl

end Recap.AvroData
