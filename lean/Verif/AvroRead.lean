import Verif.AvroMeans
import Verif.AvroLemmas
import Verif.AvroFuel

/-!
# Lemmas for C62: reading Avro schemas
-/

set_option autoImplicit false

namespace Recap.Avro

open Recap.Avro.Spec

/-! ## Names -/

theorem takeWhile_rev {x : List Char} (h : '.' ∉ x) (p : List Char) :
    (x.reverse ++ '.' :: p).takeWhile (· ≠ '.') = x.reverse ∧
      (x.reverse ++ '.' :: p).dropWhile (· ≠ '.') = '.' :: p := by
  have hx : ∀ c ∈ x.reverse, (decide (c ≠ '.')) = true := by
    intro c hc
    simp only [decide_eq_true_eq]
    rintro rfl
    exact h (List.mem_reverse.mp hc)
  constructor
  · rw [List.takeWhile_append_of_pos hx]
    simp
  · rw [List.dropWhile_append_of_pos hx]
    simp

theorem rsplitDot_append {p x : String} (h : '.' ∉ x.toList) : rsplitDot (p ++ "." ++ x) = (p, x) := by
  have e : (p ++ "." ++ x).toList.reverse = x.toList.reverse ++ '.' :: p.toList.reverse := by
    simp [String.toList_append]
  unfold rsplitDot
  simp only [e, takeWhile_rev h]
  simp

theorem hasDot_append (p x : String) : hasDot (p ++ "." ++ x) = true := by
  simp [hasDot, String.toList_append]

theorem namespaceOf_around {ns q : Option String} {d : Dict} (h : Around ns d q) : namespaceOf d ns = .ok q := by
  cases h <;> simp [namespaceOf, *]

theorem header_eq {ns q : Option String} {d : Dict} {name : Option (String × String)} (h : Header ns d name q) :
    header d ns = .ok (q, Spec.alias name, added name d) := by
  have root' : ∀ q : Option String, (match q with
      | some ns => if ns = "" then "_root" else ns
      | .none => "_root") = root q := by
    intro q
    cases q <;> rfl
  cases h with
  | anonymous h1 h2 =>
    rw [header, namespaceOf_around h1]
    simp only [bind, Except.bind, h2, pure, Except.pure]
    rfl
  | @short q x h1 h2 h3 =>
    rw [header, namespaceOf_around h1]
    simp only [bind, Except.bind, h2, pure, Except.pure]
    have : fullName q x = (root q, x) := by
      rw [← root' q]
      simp only [fullName, hasDot, h3, List.contains_iff_mem, if_false]
      cases q <;> simp
    rw [this]
    rfl
  | @full q p x h1 h2 h3 h4 =>
    rw [header, namespaceOf_around h1]
    simp only [bind, Except.bind, h2, pure, Except.pure]
    have : fullName q (p ++ "." ++ x) = (p, x) := by
      simp only [fullName, hasDot_append, if_true, rsplitDot_append h3, h4, if_false]
    rw [this]
    rfl

theorem attrsOf_added (name : Option (String × String)) (d : Dict) (al l : PyVal) (own : Dict) :
    attrsOf (added name d) al l own =
      { logical := l, alias := al, doc := Dict.getD d "doc" .none, extra := own ++ Spec.extra name d } := by
  cases name <;> cases h1 : Dict.get? d "doc" <;> cases h2 : Dict.get? d "default" <;>
    simp [attrsOf, added, Spec.extra, h1, h2, Dict.getD, Dict.get?]

theorem attrsOf_attrs (name : Option (String × String)) (d : Dict) :
    attrsOf (added name d) (Spec.alias name) = Spec.attrs name d := by
  rw [attrsOf_added]
  rfl

/-! ## One schema -/

theorem parseF_dict {ns q : Option String} {d : Dict} {name : Option (String × String)} (h : Header ns d name q)
    {v : PyVal} (ht : HasType d v) (m : Nat) (reg : Registry) : parseF (m + 1) (.dict d) ns reg =
      parseType (parseF m) q (Spec.alias name) (added name d) d reg := by
  rw [parseF, parseDict, header_eq h]
  simp [bind, Except.bind, Dict.getD, ht.plain, PyVal.truthy]

theorem primitive_eq {a : Attrs} {s : String} {t : RType} (h : Primitive a s t) :
    primitive s a = some t ∧ t.attrs = a := by
  cases h <;> exact ⟨rfl, rfl⟩

theorem primitive_none {s : String} (a : Attrs)
    (h : s ∉ ["null", "boolean", "int", "long", "float", "double", "bytes", "string"]) : primitive s a = .none := by
  simp only [List.mem_cons, List.not_mem_nil, or_false, not_or] at h
  simp [primitive, h]

theorem primitive_other {s : String} (a : Attrs) (h : Other s) : primitive s a = .none := by
  refine primitive_none a fun hs => h.1 ?_
  simp only [keywords, List.mem_cons, List.not_mem_nil, or_false] at hs ⊢
  grind

theorem parseComplex_other {s : String} (h : Other s)
    (f : PyVal → Option String → Registry → Except PyErr (RType × Registry)) (q : Option String) (al : PyVal)
    (e d : Dict) (reg : Registry) : parseComplex f q al e d s reg = .ok (reference q e s, reg) := by
  obtain ⟨h1, h2⟩ := h
  simp only [keywords, List.mem_cons, List.not_mem_nil, or_false, not_or] at h1
  simp [parseComplex, h1, h2]

theorem hasDot_target (q : Option String) (s : String) :
    (if hasDot s then s else q.getD "None" ++ "." ++ s) = target q s := by
  simp [target, hasDot]

/-- A type is registered under its name, if it has one and this is well-formed and new. -/
theorem registered_iff {t : RType} {name : Option (String × String)} (ha : t.attrs.alias = Spec.alias name)
    (reg : Registry) (t' : RType) (reg' : Registry) : registered t reg = .ok (t', reg') →
      t' = t ∧ NewNames reg (name.map (·.1)).toList ∧
        Recap.Spec.names reg' = Recap.Spec.names reg ++ (name.map (·.1)).toList := by
  intro h
  unfold registered at h
  cases name with
  | none =>
    rw [ha] at h
    cases h
    exact ⟨rfl, ⟨by simp, by simp⟩, by simp⟩
  | some p =>
    obtain ⟨s, x⟩ := p
    rw [ha] at h
    obtain ⟨r, hr, h⟩ := ok_bind h
    cases h
    obtain ⟨s', h1, h2, h3, rfl⟩ := registerAlias_ok hr
    rw [ha] at h1
    cases h1
    exact ⟨rfl, ⟨by simp, by simp [h2, h3]⟩, by simp [Recap.Spec.names]⟩

theorem registered_fresh {t : RType} {name : Option (String × String)} (ha : t.attrs.alias = Spec.alias name)
    {reg : Registry} (h : NewNames reg (name.map (·.1)).toList) : ∃ reg', registered t reg = .ok (t, reg') := by
  unfold registered
  cases name with
  | none => rw [ha]; exact ⟨_, rfl⟩
  | some p =>
    obtain ⟨s, x⟩ := p
    obtain ⟨h1, h2⟩ := h.2 s (by simp)
    have h3 : Registry.find? reg s = .none := by
      have := find?_isSome_iff reg s
      cases hf : Registry.find? reg s with
      | none => rfl
      | some u => exact absurd (this.mp (by rw [hf]; rfl)) h2
    have : Registry.registerAlias reg t = .ok (reg ++ [(s, Registry.stored reg t)]) := by
      simp only [Registry.registerAlias, ha, Spec.alias, h1, h3]
      rfl
    rw [ha]
    simp only [Spec.alias, this]
    exact ⟨_, rfl⟩

theorem NewNames.append {reg : Registry} {xs ys : List String} : NewNames reg (xs ++ ys) ↔
    NewNames reg xs ∧ ∀ reg', Recap.Spec.names reg' = Recap.Spec.names reg ++ xs → NewNames reg' ys := by
  constructor
  · rintro ⟨h1, h2⟩
    obtain ⟨h3, h4, h5⟩ := List.nodup_append.mp h1
    refine ⟨⟨h3, fun s hs => h2 s (List.mem_append_left _ hs)⟩, fun reg' hr => ⟨h4, fun s hs => ?_⟩⟩
    obtain ⟨h6, h7⟩ := h2 s (List.mem_append_right _ hs)
    refine ⟨h6, fun hm => ?_⟩
    rw [hr, List.mem_append] at hm
    rcases hm with hm | hm
    · exact h7 hm
    · exact h5 s hm s hs rfl
  · rintro ⟨⟨h1, h2⟩, h3⟩
    have hr := h3 (reg ++ xs.map fun s => (s, .null {})) (by simp [Recap.Spec.names, Function.comp_def])
    obtain ⟨h4, h5⟩ := hr
    have hn : ∀ s, s ∈ ys → s ∉ Recap.Spec.names reg ∧ s ∉ xs := by
      intro s hs
      have := (h5 s hs).2
      simp only [Recap.Spec.names, List.map_append, List.mem_append, not_or] at this
      refine ⟨this.1, fun hm => this.2 ?_⟩
      simp only [List.map_map, List.mem_map]
      exact ⟨s, hm, rfl⟩
    refine ⟨List.nodup_append.mpr ⟨h1, h4, ?_⟩, ?_⟩
    · rintro a ha b hb rfl
      exact (hn a hb).2 ha
    · intro s hs
      rcases List.mem_append.mp hs with hs | hs
      · exact h2 s hs
      · exact ⟨(h5 s hs).1, (hn s hs).1⟩

/-! ## All schemas -/

/-- The computation succeeds if and only if the names are new, with this result and these names
added. -/
def Exactly {α : Type} (x : Except PyErr (α × Registry)) (reg : Registry) (a : α) (names : List String) : Prop :=
  (NewNames reg names → ∃ reg', x = .ok (a, reg')) ∧
  ∀ a' reg', x = .ok (a', reg') → a' = a ∧ NewNames reg names ∧
    Recap.Spec.names reg' = Recap.Spec.names reg ++ names

theorem newNames_nil (reg : Registry) : NewNames reg [] := ⟨by simp, by simp⟩

theorem Exactly.ok {α : Type} {reg : Registry} {a : α} : Exactly (.ok (a, reg)) reg a [] :=
  ⟨fun _ => ⟨_, rfl⟩, fun a' reg' h => by cases h; exact ⟨rfl, newNames_nil _, by simp⟩⟩

theorem Exactly.bind {α β : Type} {x : Except PyErr (α × Registry)} {k : α × Registry → Except PyErr (β × Registry)}
    {reg : Registry} {a : α} {b : β} {xs ys : List String} (hx : Exactly x reg a xs)
    (hk : ∀ reg1, Exactly (k (a, reg1)) reg1 b ys) : Exactly (x >>= k) reg b (xs ++ ys) := by
  constructor
  · intro h
    obtain ⟨h1, h2⟩ := NewNames.append.mp h
    obtain ⟨reg1, h3⟩ := hx.1 h1
    obtain ⟨-, -, h4⟩ := hx.2 _ _ h3
    obtain ⟨reg2, h5⟩ := (hk reg1).1 (h2 reg1 h4)
    exact ⟨reg2, by rw [h3]; exact h5⟩
  · intro b' reg' h
    obtain ⟨⟨a', reg1⟩, h1, h2⟩ := ok_bind h
    obtain ⟨rfl, h3, h4⟩ := hx.2 _ _ h1
    obtain ⟨rfl, h5, h6⟩ := (hk reg1).2 _ _ h2
    refine ⟨rfl, NewNames.append.mpr ⟨h3, fun reg2 hr => ?_⟩, by rw [h6, h4, List.append_assoc]⟩
    exact ⟨h5.1, fun s hs => ⟨(h5.2 s hs).1, by rw [hr, ← h4]; exact (h5.2 s hs).2⟩⟩

theorem Exactly.registered {t : RType} {name : Option (String × String)} (ha : t.attrs.alias = Spec.alias name)
    {reg : Registry} : Exactly (registered t reg) reg t (name.map (·.1)).toList :=
  ⟨registered_fresh ha, registered_iff ha reg⟩

theorem means_parse {ns : Option String} {v : PyVal} {t : RType} {names : List String} (h : Means ns v t names) :
    ∀ m reg, v.size ≤ m → Exactly (parseF m v ns reg) reg t names := by
  induction h using Means.rec (motive_2 := fun ns vs ts names _ =>
    ∀ m reg, (∀ v ∈ vs, v.size ≤ m) → Exactly (parseAll (parseF m) ns vs reg) reg ts names) with
  | primitiveName hp =>
    intro m reg hm
    obtain ⟨m, rfl⟩ : ∃ k, m = k + 1 := ⟨m - 1, by simp [PyVal.size] at hm; omega⟩
    rename_i ns s t
    have : parseF (m + 1) (.str s) ns reg = registered t reg := by
      obtain ⟨h1, h2⟩ := primitive_eq hp
      have : attrsOf [] = {} := rfl
      simp [parseF, parseDict, header, namespaceOf, Dict.get?, copied, Dict.getD, PyVal.truthy, parseType,
        bind, Except.bind, pure, Except.pure, this, h1]
    rw [this]
    exact Exactly.registered (name := .none) (by rw [(primitive_eq hp).2]; rfl)
  | referenceName ho =>
    intro m reg hm
    obtain ⟨m, rfl⟩ : ∃ k, m = k + 1 := ⟨m - 1, by simp [PyVal.size] at hm; omega⟩
    rename_i ns s
    have : parseF (m + 1) (.str s) ns reg = .ok (.proxy .none { alias := .str (target ns s) }, reg) := by
      simp [parseF, parseDict, header, namespaceOf, Dict.get?, copied, Dict.getD, PyVal.truthy, parseType,
        bind, Except.bind, pure, Except.pure, primitive_other _ ho, parseComplex_other ho, reference, attrsOf,
        ← hasDot_target]
    rw [this]
    exact .ok
  | primitive hh ht hp =>
    intro m reg hm
    obtain ⟨m, rfl⟩ : ∃ k, m = k + 1 := ⟨m - 1, by have := PyVal.size_pos (.dict ‹Dict›); omega⟩
    rw [parseF_dict hh ht]
    obtain ⟨h1, h2⟩ := primitive_eq hp
    simp only [parseType, ht.type, attrsOf_attrs, h1]
    exact .registered (by rw [h2]; rfl)
  | reference hh ht ho =>
    intro m reg hm
    obtain ⟨m, rfl⟩ : ∃ k, m = k + 1 := ⟨m - 1, by have := PyVal.size_pos (.dict ‹Dict›); omega⟩
    rw [parseF_dict hh ht]
    simp only [parseType, ht.type, primitive_other _ ho, parseComplex_other ho, reference, attrsOf_added,
      hasDot_target]
    exact .ok
  | fixed hh ht hs hn =>
    intro m reg hm
    obtain ⟨m, rfl⟩ : ∃ k, m = k + 1 := ⟨m - 1, by have := PyVal.size_pos (.dict ‹Dict›); omega⟩
    rw [parseF_dict hh ht]
    have h1 : ∀ a, primitive "fixed" a = .none := fun a => primitive_none a (by decide)
    simp only [parseType, ht.type, h1, parseComplex, if_true, hs, asInt]
    rw [if_pos (by exact hn), attrsOf_attrs]
    exact .registered rfl
  | enum hh ht hs =>
    intro m reg hm
    obtain ⟨m, rfl⟩ : ∃ k, m = k + 1 := ⟨m - 1, by have := PyVal.size_pos (.dict ‹Dict›); omega⟩
    rw [parseF_dict hh ht]
    have h1 : ∀ a, primitive "enum" a = .none := fun a => primitive_none a (by decide)
    simp only [parseType, ht.type, h1, parseComplex, hs, attrsOf_attrs]
    exact .registered rfl
  | array hh ht hs _ ih =>
    intro m reg hm
    obtain ⟨m, rfl⟩ : ∃ k, m = k + 1 := ⟨m - 1, by have := PyVal.size_pos (.dict ‹Dict›); omega⟩
    rw [parseF_dict hh ht]
    have h1 : ∀ a, primitive "array" a = .none := fun a => primitive_none a (by decide)
    have hsz := PyVal.size_lt_of_mem_dict (Dict.mem_of_get? hs)
    simp only [parseType, ht.type, h1, parseComplex, hs, attrsOf_attrs]
    exact .bind (ih m reg (by omega)) fun reg1 => .registered rfl
  | map hh ht hs _ ih =>
    intro m reg hm
    obtain ⟨m, rfl⟩ : ∃ k, m = k + 1 := ⟨m - 1, by have := PyVal.size_pos (.dict ‹Dict›); omega⟩
    rw [parseF_dict hh ht]
    have h1 : ∀ a, primitive "map" a = .none := fun a => primitive_none a (by decide)
    have hsz := PyVal.size_lt_of_mem_dict (Dict.mem_of_get? hs)
    simp only [parseType, ht.type, h1, parseComplex, hs, attrsOf_attrs]
    exact .bind (ih m reg (by omega)) fun reg1 => .registered rfl
  | record hh ht hs _ ih =>
    intro m reg hm
    obtain ⟨m, rfl⟩ : ∃ k, m = k + 1 := ⟨m - 1, by have := PyVal.size_pos (.dict ‹Dict›); omega⟩
    rw [parseF_dict hh ht]
    have h1 : ∀ a, primitive "record" a = .none := fun a => primitive_none a (by decide)
    have hsz := PyVal.size_lt_of_mem_dict (Dict.mem_of_get? hs)
    simp only [parseType, ht.type, h1, parseComplex, hs, attrsOf_attrs, PyVal.iter]
    exact .bind (ih m reg fun v hv => by have := PyVal.size_lt_of_mem hv; omega) fun reg1 => .registered rfl
  | union hh ht _ ih =>
    intro m reg hm
    obtain ⟨m, rfl⟩ : ∃ k, m = k + 1 := ⟨m - 1, by have := PyVal.size_pos (.dict ‹Dict›); omega⟩
    rw [parseF_dict hh ht]
    have hsz := PyVal.size_lt_of_mem_dict (Dict.mem_of_get? ht.type)
    simp only [parseType, ht.type, attrsOf_attrs]
    exact .bind (ih m reg fun v hv => by have := PyVal.size_lt_of_mem hv; omega) fun reg1 => .registered rfl
  | nested hh ht _ ih =>
    rename_i ns d name q d' t names _
    intro m reg hm
    obtain ⟨m, rfl⟩ : ∃ k, m = k + 1 := ⟨m - 1, by have := PyVal.size_pos (.dict d); omega⟩
    rw [parseF_dict hh ht]
    have hsz := PyVal.size_lt_of_mem_dict (Dict.mem_of_get? ht.type)
    simp only [parseType, ht.type]
    have := Exactly.bind (ih m reg (by omega)) (ys := [])
      (b := t.withAttrs { t.attrs with extra := Dict.update t.attrs.extra (added name d) })
      (k := fun p => .ok (p.1.withAttrs { p.1.attrs with extra := Dict.update p.1.attrs.extra (added name d) }, p.2))
      fun reg1 => Exactly.ok
    rw [List.append_nil] at this
    exact this
  | logical hh hl hp =>
    intro m reg hm
    obtain ⟨m, rfl⟩ : ∃ k, m = k + 1 := ⟨m - 1, by have := PyVal.size_pos (.dict ‹Dict›); omega⟩
    rename_i ns d name q l t
    have : parseF (m + 1) (.dict d) ns reg = .ok (t, reg) := by
      have hl' : Dict.getD d "logicalType" .none = .str l := by rw [Dict.getD, hl]; rfl
      have hne : l ≠ "" := by cases hp <;> decide
      have : parseLogical (.str l) d (added name d) = .ok t := by
        cases hp <;> simp [parseLogical, *, attrsOf_added, Spec.logical, Dict.getD, maxLong, PyVal.pyEq]
      rw [parseF, parseDict, header_eq hh]
      simp [bind, Except.bind, hl', PyVal.truthy, hne, this, pure, Except.pure]
    rw [this]
    exact .ok
  | nil => exact .ok
  | @cons ns v vs t ts names names' _ _ ih1 ih2 =>
    rename_i m reg hm
    simp only [parseAll]
    refine .bind (ih1 m reg (hm _ (by simp))) fun reg1 => ?_
    have := Exactly.bind (ih2 m reg1 fun v hv => hm v (by simp [hv])) (ys := [])
      (b := t :: ts) (k := fun p => .ok (t :: p.1, p.2)) fun reg2 => Exactly.ok
    rw [List.append_nil] at this
    exact this

end Recap.Avro
