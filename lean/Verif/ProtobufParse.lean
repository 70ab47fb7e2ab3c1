import Verif.ProtobufOrder

/-!
# Lemmas about what is registered when a Protobuf file is read
-/

set_option autoImplicit false

namespace Recap.Protobuf

open Recap.Protobuf.Spec Recap.Spec

mutual
/-- The references in a type are to the live registry, and to names with `P`. -/
def Fresh (P : String → Prop) : RType → Prop
  | .list t _ _ _ => Fresh P t
  | .map k t _ => Fresh P k ∧ Fresh P t
  | .struct fs _ => FreshAll P fs
  | .union ts _ => FreshAll P ts
  | .proxy .none a => Plus a.extra ∧ ∃ s, a.alias = .str s ∧ P s
  | .proxy (some _) _ => False
  | _ => True
def FreshAll (P : String → Prop) : List RType → Prop
  | [] => True
  | t :: ts => Fresh P t ∧ FreshAll P ts
end

theorem freshAll_append {P : String → Prop} {a b : List RType} : FreshAll P (a ++ b) ↔ FreshAll P a ∧ FreshAll P b := by
  induction a with
  | nil => simp [FreshAll]
  | cons kt a ih => simp only [List.cons_append, FreshAll, ih, and_assoc]

mutual
theorem fresh_mono {P Q : String → Prop} (hpq : ∀ s, P s → Q s) : ∀ t : RType, Fresh P t → Fresh Q t
  | .list t _ _ _, h => by simp only [Fresh] at *; exact fresh_mono hpq t h
  | .map k t _, h => by simp only [Fresh] at *; exact ⟨fresh_mono hpq k h.1, fresh_mono hpq t h.2⟩
  | .struct fs _, h => by simp only [Fresh] at *; exact freshAll_mono hpq fs h
  | .union ts _, h => by simp only [Fresh] at *; exact freshAll_mono hpq ts h
  | .proxy .none _, h => by
    simp only [Fresh] at *
    obtain ⟨h1, s, h2, h3⟩ := h
    exact ⟨h1, s, h2, hpq s h3⟩
  | .proxy (some r) _, h => by simp only [Fresh] at h
  | .null _, _ => trivial
  | .bool _, _ => trivial
  | .int .., _ => trivial
  | .float .., _ => trivial
  | .string .., _ => trivial
  | .bytes .., _ => trivial
  | .enum .., _ => trivial
theorem freshAll_mono {P Q : String → Prop} (hpq : ∀ s, P s → Q s) : ∀ ts : List RType, FreshAll P ts → FreshAll Q ts
  | [], _ => trivial
  | t :: ts, h => by simp only [FreshAll] at *; exact ⟨fresh_mono hpq t h.1, freshAll_mono hpq ts h.2⟩
end

mutual
theorem fresh_flat {P : String → Prop} : ∀ t : RType, Fresh P t → Flat t ∧ Loose t
  | .list t _ _ _, h => by simp only [Fresh, Flat, Loose] at *; exact fresh_flat t h
  | .map k t _, h => by
    simp only [Fresh, Flat, Loose] at *
    obtain ⟨h1, h2⟩ := fresh_flat k h.1
    obtain ⟨h3, h4⟩ := fresh_flat t h.2
    exact ⟨⟨h1, h3⟩, h2, h4⟩
  | .struct fs _, h => by simp only [Fresh, Flat, Loose] at *; exact fresh_flatAll fs h
  | .union ts _, h => by simp only [Fresh, Flat, Loose] at *; exact fresh_flatAll ts h
  | .proxy .none _, h => by
    simp only [Fresh, Flat, Loose] at *
    exact ⟨h.1, trivial⟩
  | .proxy (some r) _, h => by simp only [Fresh] at h
  | .null _, _ => ⟨trivial, trivial⟩
  | .bool _, _ => ⟨trivial, trivial⟩
  | .int .., _ => ⟨trivial, trivial⟩
  | .float .., _ => ⟨trivial, trivial⟩
  | .string .., _ => ⟨trivial, trivial⟩
  | .bytes .., _ => ⟨trivial, trivial⟩
  | .enum .., _ => ⟨trivial, trivial⟩
theorem fresh_flatAll {P : String → Prop} : ∀ ts : List RType, FreshAll P ts → FlatAll ts ∧ LooseAll ts
  | [], _ => ⟨trivial, trivial⟩
  | t :: ts, h => by
    simp only [FreshAll, FlatAll, LooseAll] at *
    obtain ⟨h1, h2⟩ := fresh_flat t h.1
    obtain ⟨h3, h4⟩ := fresh_flatAll ts h.2
    exact ⟨⟨h1, h3⟩, h2, h4⟩
end

/-! ## Fields -/

/-- The full names of the messages and enums that a name in a list refers to. -/
def Refs (ns : String) (l : List String) (s : String) : Prop := ∃ ty ∈ l, Spec.scalar ty = .none ∧ s = full ns ty

theorem fresh_scalar {P : String → Prop} {s : String} {t : RType} (h : Spec.scalar s = some t) (a : Attrs) :
    Fresh P (t.withAttrs a) := by
  refine scalar_cases (P := fun _ t => Fresh P (t.withAttrs a)) h ?_
  simp [scalars, RType.withAttrs, Fresh]

theorem withAttrs_attrs (t : RType) : t.withAttrs t.attrs = t := by cases t <;> rfl

theorem typeOf_fresh {ns s : String} {t : RType} (h : typeOf (some ns) s = .ok t) :
    Fresh (Refs ns [s]) t ∧ ∀ name, Fresh (Refs ns [s]) (setExtra t "name" name) := by
  rcases typeOf_ok h with ⟨u, hu, rfl⟩ | ⟨hu, rfl⟩
  · exact ⟨by have := fresh_scalar (P := Refs ns [s]) hu t.attrs; rwa [withAttrs_attrs] at this,
      fun name => fresh_scalar hu _⟩
  · exact ⟨⟨.inl rfl, _, rfl, s, by simp, hu, rfl⟩, fun name => ⟨.inr ⟨name, rfl⟩, _, rfl, s, by simp, hu, rfl⟩⟩

theorem fieldType_fresh {ns s : String} {t : RType} {card : Option Card} {name : PyVal}
    (h : typeOf (some ns) s = .ok t) : Fresh (Refs ns [s]) (fieldType t card name) := by
  obtain ⟨h1, h2⟩ := typeOf_fresh h
  have hn : t.isNull = true → ∃ a, t = .null a := by intro h; cases t <;> simp [RType.isNull] at h <;> exact ⟨_, rfl⟩
  match card with
  | some .required => exact h2 name
  | .none =>
    unfold fieldType
    by_cases hh : t.isNull = true
    · obtain ⟨a, rfl⟩ := hn hh
      trivial
    · show Fresh _ (setExtra (setExtra (if t.isNull then t else
        .union [.null {}, t] { extra := [("default", .none)] }) "default" .none) "name" name)
      rw [if_neg hh]
      exact ⟨trivial, h1, trivial⟩
  | some .optional =>
    unfold fieldType
    by_cases hh : t.isNull = true
    · obtain ⟨a, rfl⟩ := hn hh
      trivial
    · show Fresh _ (setExtra (setExtra (if t.isNull then t else
        .union [.null {}, t] { extra := [("default", .none)] }) "default" .none) "name" name)
      rw [if_neg hh]
      exact ⟨trivial, h1, trivial⟩
  | some .repeated =>
    exact ⟨trivial, h1, trivial⟩

theorem mapType_fresh {ns key value : String} {t : RType} {name : PyVal} (h : mapType (some ns) name key value = .ok t) :
    Fresh (Refs ns [key, value]) t := by
  unfold mapType at h
  obtain ⟨u, h1, h⟩ := ok_bind h
  split at h
  · obtain ⟨v, h2, h⟩ := ok_bind h
    cases h
    have h3 := fresh_mono (Q := Refs ns [key, value]) (fun s ⟨ty, h1, h2⟩ => ⟨ty, by simp at h1; simp [h1], h2⟩) _
      (typeOf_fresh h1).1
    have h4 := fresh_mono (Q := Refs ns [key, value]) (fun s ⟨ty, h1, h2⟩ => ⟨ty, by simp at h1; simp [h1], h2⟩) _
      (typeOf_fresh h2).1
    split
    · exact ⟨trivial, ⟨h3, h4⟩, trivial⟩
    · exact ⟨trivial, ⟨h3, h4⟩, trivial⟩
  · cases h

theorem refs_left {ns : String} {a b : List String} {s : String} (h : Refs ns a s) : Refs ns (a ++ b) s := by
  obtain ⟨ty, h1, h2⟩ := h
  exact ⟨ty, by simp [h1], h2⟩

theorem refs_right {ns : String} {a b : List String} {s : String} (h : Refs ns b s) : Refs ns (a ++ b) s := by
  obtain ⟨ty, h1, h2⟩ := h
  exact ⟨ty, by simp [h1], h2⟩

theorem oneofTypes_fresh {ns : String} {es : List Elem} : ∀ {ts : List RType}, oneofTypes (some ns) es = .ok ts →
    FreshAll (Refs ns (typesAll es)) ts := by
  induction es with
  | nil => intro ts h; simp only [oneofTypes] at h; cases h; trivial
  | cons e es ih =>
    intro ts h
    cases e
    case field name k s card =>
      simp only [oneofTypes] at h
      obtain ⟨t, h1, h⟩ := ok_bind h
      obtain ⟨ts', h2, h⟩ := ok_bind h
      cases h
      exact ⟨fresh_mono (fun s => refs_left) _ (fieldType_fresh h1), freshAll_mono (fun s => refs_right) _ (ih h2)⟩
    all_goals
      simp only [oneofTypes] at h
      exact freshAll_mono (fun s => refs_right) _ (ih h)

theorem parseElem_fresh {ns : String} {e : Elem} {reg reg' : Registry} {fs : List RType}
    (h : parseElem (some ns) e reg = .ok (fs, reg')) : FreshAll (Refs ns (types e)) fs := by
  cases e
  case field =>
    simp only [parseElem] at h
    obtain ⟨t, h1, h⟩ := ok_bind h
    cases h
    exact ⟨fieldType_fresh h1, trivial⟩
  case mapField =>
    simp only [parseElem] at h
    obtain ⟨t, h1, h⟩ := ok_bind h
    cases h
    exact ⟨mapType_fresh h1, trivial⟩
  case oneof =>
    simp only [parseElem] at h
    obtain ⟨t, h1, h⟩ := ok_bind h
    cases h
    exact ⟨⟨trivial, oneofTypes_fresh h1⟩, trivial⟩
  case message =>
    simp only [parseElem] at h
    obtain ⟨_, h1, h⟩ := ok_bind h
    obtain ⟨_, h2, h⟩ := ok_bind h
    cases h
    trivial
  case enum =>
    simp only [parseElem] at h
    obtain ⟨_, h1, h⟩ := ok_bind h
    cases h
    trivial
  all_goals
    simp only [parseElem] at h
    cases h
    trivial

theorem parseElems_fresh {ns : String} {es : List Elem} : ∀ {reg reg' : Registry} {fs : List RType},
    parseElems (some ns) es reg = .ok (fs, reg') → FreshAll (Refs ns (typesAll es)) fs := by
  induction es with
  | nil => intro reg reg' fs h; simp only [parseElems] at h; cases h; trivial
  | cons e es ih =>
    intro reg reg' fs h
    simp only [parseElems] at h
    obtain ⟨⟨fs1, reg1⟩, h1, h⟩ := ok_bind h
    obtain ⟨⟨fs2, reg2⟩, h2, h⟩ := ok_bind h
    cases h
    exact freshAll_append.mpr ⟨freshAll_mono (fun s => refs_left) _ (parseElem_fresh h1),
      freshAll_mono (fun s => refs_right) _ (ih h2)⟩

/-! ## What is registered -/

/-- Something holds after every registration of an enum and of a struct with references to the live
registry. -/
structure Inv (I : Registry → Prop) (ns : String) : Prop where
  enum : ∀ {name values reg reg'}, I reg → parseEnum (some ns) name values reg = .ok reg' → I reg'
  struct : ∀ {name es fs reg t reg'}, I reg → FreshAll (Refs ns (typesAll es)) fs →
    register (some ns) name fs reg = .ok (t, reg') → I reg'

mutual
theorem parseElem_inv {I : Registry → Prop} {ns : String} (hi : Inv I ns) : ∀ (e : Elem) {reg reg' : Registry} {fs : List RType},
    parseElem (some ns) e reg = .ok (fs, reg') → I reg → I reg'
  | .field .., reg, reg', fs, h, hr => by
    simp only [parseElem] at h
    obtain ⟨t, h1, h⟩ := ok_bind h
    cases h
    exact hr
  | .mapField .., reg, reg', fs, h, hr => by
    simp only [parseElem] at h
    obtain ⟨t, h1, h⟩ := ok_bind h
    cases h
    exact hr
  | .oneof .., reg, reg', fs, h, hr => by
    simp only [parseElem] at h
    obtain ⟨t, h1, h⟩ := ok_bind h
    cases h
    exact hr
  | .message name es, reg, reg', fs, h, hr => by
    simp only [parseElem] at h
    obtain ⟨⟨fs1, reg1⟩, h1, h⟩ := ok_bind h
    obtain ⟨⟨t, reg2⟩, h2, h⟩ := ok_bind h
    cases h
    exact hi.struct (parseElems_inv hi es h1 hr) (parseElems_fresh h1) h2
  | .enum .., reg, reg', fs, h, hr => by
    simp only [parseElem] at h
    obtain ⟨t, h1, h⟩ := ok_bind h
    cases h
    exact hi.enum hr h1
  | .package _, reg, reg', fs, h, hr => by
    simp only [parseElem] at h
    cases h
    exact hr
  | .other, reg, reg', fs, h, hr => by
    simp only [parseElem] at h
    cases h
    exact hr
theorem parseElems_inv {I : Registry → Prop} {ns : String} (hi : Inv I ns) : ∀ (es : List Elem) {reg reg' : Registry}
    {fs : List RType}, parseElems (some ns) es reg = .ok (fs, reg') → I reg → I reg'
  | [], reg, reg', fs, h, hr => by
    simp only [parseElems] at h
    cases h
    exact hr
  | e :: es, reg, reg', fs, h, hr => by
    simp only [parseElems] at h
    obtain ⟨⟨fs1, reg1⟩, h1, h⟩ := ok_bind h
    obtain ⟨⟨fs2, reg2⟩, h2, h⟩ := ok_bind h
    cases h
    exact parseElems_inv hi es h2 (parseElem_inv hi e h1 hr)
end

theorem parseTop_inv {I : Registry → Prop} {ns : String} (hi : Inv I ns) {es : List Elem} : ∀ {reg reg' : Registry}
    {root root' : Option RType}, parseTop (some ns) es root reg = .ok (root', reg') → I reg → I reg' ∧
      ∀ t, root' = some t → root = some t ∨ (root = .none ∧ ∃ name xs fs, firstMessage es = some (name, xs) ∧
        t = .struct fs { alias := .str (ns ++ "." ++ name) } ∧ FreshAll (Refs ns (typesAll xs)) fs) := by
  induction es with
  | nil =>
    intro reg reg' root root' h hr
    simp only [parseTop] at h
    cases h
    exact ⟨hr, fun t h => .inl h⟩
  | cons e es ih =>
    intro reg reg' root root' h hr
    cases e
    case message name xs =>
      simp only [parseTop] at h
      obtain ⟨⟨t, reg1⟩, h1, h⟩ := ok_bind h
      unfold parseMessage at h1
      obtain ⟨⟨fs, reg2⟩, h2, h1⟩ := ok_bind h1
      have hf := parseElems_fresh h2
      have ht : t = .struct fs { alias := .str (ns ++ "." ++ name) } := by
        simp only [register] at h1
        obtain ⟨_, _, h1⟩ := ok_bind h1
        cases h1
        rfl
      obtain ⟨h8, h9⟩ := ih h (hi.struct (parseElems_inv hi xs h2 hr) hf h1)
      refine ⟨h8, fun u hu => ?_⟩
      rcases h9 u hu with h | ⟨h, -⟩
      · cases root with
        | some r => exact .inl (by simpa using h)
        | none =>
          simp only [Option.getD_none, Option.some.injEq] at h
          subst h
          exact .inr ⟨rfl, name, xs, fs, rfl, ht, hf⟩
      · cases h
    case enum name values =>
      simp only [parseTop] at h
      obtain ⟨reg1, h1, h⟩ := ok_bind h
      exact ih h (hi.enum hr h1)
    all_goals
      simp only [parseTop] at h
      exact ih h hr

theorem inv_flat (ns : String) : Inv FlatReg ns where
  enum hr h := by
    simp only [parseEnum] at h
    obtain ⟨s, -, -, -, rfl⟩ := registerAlias_ok h
    exact flatReg_append.mpr ⟨hr, ⟨by simp [Registry.stored, RType.deepcopy, RType.withAttrs], trivial⟩, trivial⟩
  struct hr hf h := by
    simp only [register] at h
    obtain ⟨_, h1, h⟩ := ok_bind h
    cases h
    obtain ⟨s, -, -, -, rfl⟩ := registerAlias_ok h1
    exact flatReg_append.mpr ⟨hr, ⟨by simp [Registry.stored, RType.deepcopy, RType.withAttrs],
      flat_deepcopyAll hr _ (fresh_flatAll _ hf).1⟩, trivial⟩

theorem inv_sealed (ns : String) : Inv SealedReg ns where
  enum hr h := by
    simp only [parseEnum] at h
    exact sealedReg_register hr (by simp only [Loose]) h
  struct hr hf h := by
    simp only [register] at h
    obtain ⟨_, h1, h⟩ := ok_bind h
    cases h
    exact sealedReg_register hr (by exact (fresh_flatAll _ hf).2) h1

theorem flat_newRegistry : FlatReg newRegistry := by
  simp [newRegistry, builtinAliases, FlatReg, Flat]

/-- The registry of a converter has no references to references, and no references to itself. -/
theorem has_read_flat {c : Converter} {D : Decls} (h : Has_read c D) : FlatReg c.registry ∧ SealedReg c.registry := by
  induction h with
  | new => exact ⟨flat_newRegistry, sealed_newRegistry⟩
  | read _ hns hr ih =>
    obtain ⟨root, ns, -, h2, -⟩ := toRecap_ok hr
    exact ⟨(parseTop_inv (inv_flat ns) h2 ih.1).1, (parseTop_inv (inv_sealed ns) h2 ih.2).1⟩

/-- The references that are left. -/
theorem toRecap_left {c c' : Converter} {D : Decls} {file : List Elem} {t : RType} (hc : Has_read c D)
    (h : toRecap c file = .ok (t, c')) {r : Option (List (String × RType))} {a : Attrs} (hs : Sub (.proxy r a) t) :
    Al t a.alias := by
  obtain ⟨root, ns, -, h2, -, h3, -⟩ := toRecap_ok h
  obtain ⟨h4, h5⟩ := parseTop_inv (inv_flat ns) h2 (has_read_flat hc).1
  unfold resolveProxies at h3
  obtain ⟨⟨t', R', S'⟩, h6, h3⟩ := ok_bind h3
  cases h3
  rcases h5 root rfl with h | ⟨-, name, xs, fs, -, rfl, h7⟩
  · cases h
  · have hf : Flat (.struct fs { alias := .str (ns ++ "." ++ name) }) := (fresh_flatAll fs h7).1
    rcases (resolveF_left h4 _ _ _ _ _ _ _ hf h6).2.2 r a hs with h | h | h
    · simp at h
    · simp at h
    · exact h

/-! ## Names -/

theorem fulls_append (ns : String) (a b : List Elem) : fulls ns (a ++ b) = fulls ns a ++ fulls ns b := by
  simp [fulls]

/-- What is added to a registry is new and can be an alias. -/
def Adds (l : List String) (reg reg' : Registry) : Prop :=
  l.Nodup ∧ (∀ s ∈ l, s ∉ Spec.names reg ∧ aliasOk s = true) ∧ Spec.names reg' = Spec.names reg ++ l

theorem Adds.nil (reg : Registry) : Adds [] reg reg := ⟨List.nodup_nil, by simp, by simp⟩

theorem Adds.append {a b : List String} {r1 r2 r3 : Registry} (h1 : Adds a r1 r2) (h2 : Adds b r2 r3) :
    Adds (a ++ b) r1 r3 := by
  obtain ⟨h3, h4, h5⟩ := h1
  obtain ⟨h6, h7, h8⟩ := h2
  rw [h5] at h7 h8
  refine ⟨List.nodup_append.mpr ⟨h3, h6, ?_⟩, ?_, by rw [h8, List.append_assoc]⟩
  · rintro x hx y hy rfl
    exact (h7 x hy).1 (List.mem_append.mpr (.inr hx))
  · intro s hs
    rcases List.mem_append.mp hs with hs | hs
    · exact h4 s hs
    · exact ⟨fun hm => (h7 s hs).1 (List.mem_append.mpr (.inl hm)), (h7 s hs).2⟩

theorem names_append (a b : Registry) : Spec.names (a ++ b) = Spec.names a ++ Spec.names b := by
  simp [Spec.names]

theorem parseEnum_adds {ns name : String} {values : List (PyVal × Int)} {reg reg' : Registry}
    (h : parseEnum (some ns) name values reg = .ok reg') : Adds [ns ++ "." ++ name] reg reg' := by
  simp only [parseEnum] at h
  obtain ⟨s, h1, h2, h4, rfl⟩ := registerAlias_ok h
  cases h1
  exact ⟨by simp, by simpa using ⟨h2, h4⟩, by rw [names_append]; rfl⟩

theorem register_adds {ns name : String} {fs : List RType} {reg reg' : Registry} {t : RType}
    (h : register (some ns) name fs reg = .ok (t, reg')) : Adds [ns ++ "." ++ name] reg reg' := by
  simp only [register] at h
  obtain ⟨reg1, h1, h⟩ := ok_bind h
  cases h
  obtain ⟨s, h3, h2, h4, rfl⟩ := registerAlias_ok h1
  cases h3
  exact ⟨by simp, by simpa using ⟨h2, h4⟩, by rw [names_append]; rfl⟩

mutual
theorem parseElem_adds {ns : String} : ∀ (e : Elem) {reg reg' : Registry} {fs : List RType},
    parseElem (some ns) e reg = .ok (fs, reg') → Adds (fulls ns (inner e)) reg reg'
  | .field .., reg, reg', fs, h => by
    simp only [parseElem] at h
    obtain ⟨t, h1, h⟩ := ok_bind h
    cases h
    exact .nil _
  | .mapField .., reg, reg', fs, h => by
    simp only [parseElem] at h
    obtain ⟨t, h1, h⟩ := ok_bind h
    cases h
    exact .nil _
  | .oneof .., reg, reg', fs, h => by
    simp only [parseElem] at h
    obtain ⟨t, h1, h⟩ := ok_bind h
    cases h
    exact .nil _
  | .message name es, reg, reg', fs, h => by
    simp only [parseElem] at h
    obtain ⟨⟨fs1, reg1⟩, h1, h⟩ := ok_bind h
    obtain ⟨⟨t, reg2⟩, h2, h⟩ := ok_bind h
    cases h
    rw [inner, fulls_append]
    exact (parseElems_adds es h1).append (register_adds h2)
  | .enum .., reg, reg', fs, h => by
    simp only [parseElem] at h
    obtain ⟨t, h1, h⟩ := ok_bind h
    cases h
    exact parseEnum_adds h1
  | .package _, reg, reg', fs, h => by
    simp only [parseElem] at h
    cases h
    exact .nil _
  | .other, reg, reg', fs, h => by
    simp only [parseElem] at h
    cases h
    exact .nil _
theorem parseElems_adds {ns : String} : ∀ (es : List Elem) {reg reg' : Registry}
    {fs : List RType}, parseElems (some ns) es reg = .ok (fs, reg') → Adds (fulls ns (innerAll es)) reg reg'
  | [], reg, reg', fs, h => by
    simp only [parseElems] at h
    cases h
    exact .nil _
  | e :: es, reg, reg', fs, h => by
    simp only [parseElems] at h
    obtain ⟨⟨fs1, reg1⟩, h1, h⟩ := ok_bind h
    obtain ⟨⟨fs2, reg2⟩, h2, h⟩ := ok_bind h
    cases h
    rw [innerAll, fulls_append]
    exact (parseElem_adds e h1).append (parseElems_adds es h2)
end

theorem parseTop_adds {ns : String} {es : List Elem} : ∀ {reg reg' : Registry}
    {root root' : Option RType}, parseTop (some ns) es root reg = .ok (root', reg') →
      Adds (fulls ns (innerAll es)) reg reg' := by
  induction es with
  | nil =>
    intro reg reg' root root' h
    simp only [parseTop] at h
    cases h
    exact .nil _
  | cons e es ih =>
    intro reg reg' root root' h
    cases e
    case message name xs =>
      simp only [parseTop] at h
      obtain ⟨⟨t, reg1⟩, h1, h⟩ := ok_bind h
      unfold parseMessage at h1
      obtain ⟨⟨fs, reg2⟩, h2, h1⟩ := ok_bind h1
      rw [innerAll, fulls_append, inner, fulls_append]
      exact ((parseElems_adds xs h2).append (register_adds h1)).append (ih h)
    case enum name values =>
      simp only [parseTop] at h
      obtain ⟨reg1, h1, h⟩ := ok_bind h
      rw [innerAll, fulls_append]
      exact (parseEnum_adds h1).append (ih h)
    all_goals
      simp only [parseTop] at h
      rw [innerAll, fulls_append]
      exact ih h

mutual
theorem within_inner {e : Elem} {n : String} (hn : Spec.nameOf e = some n) : ∀ x : Elem,
    (e = x ∨ ∃ m es, x = .message m es ∧ Within e es) → e ∈ inner x
  | .message m es, h => by
    rw [inner, List.mem_append]
    rcases h with rfl | ⟨_, _, h1, h2⟩
    · exact .inr (by simp)
    · cases h1
      exact .inl (within_innerAll hn es h2)
  | .enum m vs, h => by
    rcases h with rfl | ⟨_, _, h1, _⟩
    · simp [inner]
    · cases h1
  | .field .., h => by
    rcases h with rfl | ⟨_, _, h1, _⟩
    · cases hn
    · cases h1
  | .mapField .., h => by
    rcases h with rfl | ⟨_, _, h1, _⟩
    · cases hn
    · cases h1
  | .oneof .., h => by
    rcases h with rfl | ⟨_, _, h1, _⟩
    · cases hn
    · cases h1
  | .package _, h => by
    rcases h with rfl | ⟨_, _, h1, _⟩
    · cases hn
    · cases h1
  | .other, h => by
    rcases h with rfl | ⟨_, _, h1, _⟩
    · cases hn
    · cases h1
/-- All messages and enums of a file are among those that are registered. -/
theorem within_innerAll {e : Elem} {n : String} (hn : Spec.nameOf e = some n) : ∀ es : List Elem,
    Within e es → e ∈ innerAll es
  | [], h => by
    cases h with
    | here hm => simp at hm
    | inside hm => simp at hm
  | x :: es, h => by
    rw [innerAll, List.mem_append]
    cases h with
    | here hm =>
      rcases List.mem_cons.mp hm with h | h
      · exact .inl (within_inner hn x (.inl h))
      · exact .inr (within_innerAll hn es (.here h))
    | inside hm hw =>
      rcases List.mem_cons.mp hm with h | h
      · exact .inl (within_inner hn x (.inr ⟨_, _, h.symm, hw⟩))
      · exact .inr (within_innerAll hn es (.inside h hw))
end

theorem mem_fulls {ns n : String} {e : Elem} {l : List Elem} (hn : Spec.nameOf e = some n) (h : e ∈ l) :
    ns ++ "." ++ n ∈ fulls ns l :=
  List.mem_map.mpr ⟨n, List.mem_filterMap.mpr ⟨e, h, hn⟩, rfl⟩

/-- What has been declared can be an alias. -/
theorem has_read_alias {c : Converter} {D : Decls} (h : Has_read c D) {s ns : String} {e : Elem} (hd : D s ns e) :
    aliasOk s = true := by
  induction h with
  | new => exact hd.elim
  | read _ hns hr ih =>
    rcases hd with hd | ⟨rfl, hw, m, hm, rfl⟩
    · exact ih hd
    · obtain ⟨root, ns', h1, h2, -⟩ := toRecap_ok hr
      rw [hns] at h1
      cases h1
      exact ((parseTop_adds h2).2.1 _ (mem_fulls hm (within_innerAll hm _ hw))).2

/-- The aliases of the structs and enums in a type are names of declarations, and those of references are
strings. -/
def Named (D : Decls) (t : RType) : Prop :=
  ∀ u, Sub u t → (∀ r a, u = .proxy r a → ∃ z, a.alias = .str z) ∧
    ((∀ r a, u ≠ .proxy r a) → ∀ z, u.attrs.alias = .str z →
      ((∃ fs a, u = .struct fs a) ∨ ∃ symbols a, u = .enum symbols a) ∧ ∃ n e, D z n e)

/-- A type without an alias that is no reference. -/
theorem named_plain {D : Decls} {u : RType} (ha : u.attrs.alias = .none) (hp : ∀ r a, u ≠ .proxy r a) :
    (∀ r a, u = .proxy r a → ∃ z, a.alias = .str z) ∧
    ((∀ r a, u ≠ .proxy r a) → ∀ z, u.attrs.alias = .str z →
      ((∃ fs a, u = .struct fs a) ∨ ∃ symbols a, u = .enum symbols a) ∧ ∃ n e, D z n e) :=
  ⟨fun r a h => absurd h (hp r a), fun _ z hz => by rw [ha] at hz; cases hz⟩

theorem named_scalar {D : Decls} {s : String} {t : RType} (h : Spec.scalar s = some t) (x : Dict) :
    Named D (t.withAttrs { t.attrs with extra := x }) := by
  intro u hs
  have : u.attrs.alias = .none ∧ ∀ r a, u ≠ .proxy r a := by
    revert hs
    refine scalar_cases (P := fun _ v => Sub u (v.withAttrs { v.attrs with extra := x }) →
      u.attrs.alias = .none ∧ ∀ r a, u ≠ .proxy r a) h ?_
    simp only [scalars, List.forall_mem_cons, RType.withAttrs, RType.attrs]
    refine ⟨?_, ?_, ?_, ?_, ?_, ?_, ?_, ?_, ?_, ?_, ?_, ?_, ?_, ?_, ?_, ?_, ?_, ?_, by simp⟩ <;>
      (intro hs; cases hs; exact ⟨rfl, by simp⟩)
  exact named_plain this.1 this.2

theorem named_optional {D : Decls} {ts : List RType} {x : Dict} (h : ∀ t ∈ ts, Named D t) :
    Named D (.union (.null {} :: ts) { extra := x }) := by
  intro u hs
  cases hs with
  | refl => exact named_plain rfl (by simp)
  | member hm hs =>
    rcases List.mem_cons.mp hm with rfl | hm
    · cases hs; exact named_plain rfl (by simp)
    · exact h _ hm u hs

mutual
theorem Reads.named {D : Decls} {ns s : String} {x : Dict} {t : RType} : Reads D ns s x t → Named D t
  | .scalar h => named_scalar h _
  | .reference _ => fun u hs => by
    cases hs
    exact ⟨fun r a h => by cases h; exact ⟨_, rfl⟩, fun hp => absurd rfl (hp _ _)⟩
  | .message h1 h2 h3 => by
    have ih := Fields.named h3
    intro u hs
    cases hs with
    | refl =>
      refine ⟨by simp, fun _ z hz => ?_⟩
      simp only [RType.attrs, PyVal.str.injEq] at hz
      subst hz
      exact ⟨.inl ⟨_, _, rfl⟩, _, _, h2⟩
    | field hm hs => exact ih _ hm u hs
  | .enum h1 h2 => by
    intro u hs
    cases hs with
    | refl =>
      refine ⟨by simp, fun _ z hz => ?_⟩
      simp only [RType.attrs, PyVal.str.injEq] at hz
      subst hz
      exact ⟨.inr ⟨_, _, rfl⟩, _, _, h2⟩
theorem FieldReads.named {D : Decls} {ns : String} {e : Elem} {t : RType} : FieldReads D ns e t → Named D t
  | .required h => Reads.named h
  | .optional h1 h2 h3 => by
    have ih := Reads.named h3
    exact named_optional (by simpa using ih)
  | .null h => by intro u hs; cases hs; exact named_plain rfl (by simp)
  | .repeated h => by
    have ih := Reads.named h
    refine named_optional fun t ht => ?_
    simp only [List.mem_singleton] at ht
    subst ht
    intro u hs
    cases hs with
    | refl => exact named_plain rfl (by simp)
    | list hs => exact ih u hs
  | .map (t := v) h1 h2 h3 => by
    have ih := Reads.named h3
    refine named_optional fun t ht => ?_
    simp only [List.mem_singleton] at ht
    subst ht
    intro u hs
    cases hs with
    | refl => exact named_plain rfl (by simp)
    | key hs =>
      have := named_scalar (D := D) h1 v.attrs.extra
      rw [show v.withAttrs { v.attrs with extra := v.attrs.extra } = v by cases v <;> rfl] at this
      exact this u hs
    | value hs => exact ih u hs
  | .oneof h => named_optional (Members.named h)
theorem Members.named {D : Decls} {ns : String} {es : List Elem} {ts : List RType} :
    Members D ns es ts → ∀ t ∈ ts, Named D t
  | .nil => by simp
  | .field h1 h2 => by
    have ih1 := Reads.named h1
    have ih2 := Members.named h2
    intro t hm
    rcases List.mem_cons.mp hm with rfl | hm
    · exact ih1
    · exact ih2 t hm
  | .skip h1 h2 => Members.named h2
theorem Fields.named {D : Decls} {ns : String} {es : List Elem} {ts : List RType} :
    Fields D ns es ts → ∀ t ∈ ts, Named D t
  | .nil => by simp
  | .field h1 h2 => by
    have ih1 := FieldReads.named h1
    have ih2 := Fields.named h2
    intro t hm
    rcases List.mem_cons.mp hm with rfl | hm
    · exact ih1
    · exact ih2 t hm
  | .skip h1 h2 => Fields.named h2
end

theorem Fields.mem {D : Decls} {ns : String} {e : Elem} {es : List Elem} (hm : e ∈ es) (hl : label e ≠ .none) :
    ∀ {fs : List RType}, Fields D ns es fs → ∃ f ∈ fs, FieldReads D ns e f := by
  induction es with
  | nil => simp at hm
  | cons x es ih =>
    intro fs h
    cases h with
    | field h1 h2 =>
      rcases List.mem_cons.mp hm with rfl | hm
      · exact ⟨_, by simp, h1⟩
      · obtain ⟨f, hf, h3⟩ := ih hm h2
        exact ⟨f, by simp [hf], h3⟩
    | skip h1 h2 =>
      rcases List.mem_cons.mp hm with rfl | hm
      · exact absurd h1 hl
      · exact ih hm h2

end Recap.Protobuf
