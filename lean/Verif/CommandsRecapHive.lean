import Verif.CommandsRecapBig

/-! # Tables of Hive in Recap's own format: helper lemmas for C115 -/

set_option autoImplicit false

namespace Recap.Hive

open RType Spec Relational Recap.Commands.Spec

/-- The member of a union besides null. -/
structure Other (m : RType) : Prop where
  union : m.isUnion = false
  null : m.isNull = false
  name : "name" ∉ m.attrs.extra.keys
  default : "default" ∉ m.attrs.extra.keys

/-- A field of a struct, with a name that satisfies `N`. -/
def HField (N : String → Prop) (f : RType) : Prop :=
  (f.isUnion = true ∨ f.isNull = true) ∧ ∃ n, N n ∧ Dict.get? f.attrs.extra "name" = some (.str n)

/-- A type object as the converter makes it; the docs of unions satisfy `P` and the names of fields `N`. -/
structure HPiece (P : PyVal → Prop) (N : String → Prop) (u : RType) : Prop where
  proxy : u.isProxy = false
  alias : u.attrs.alias = .none
  keys : ∀ k ∈ u.attrs.extra.keys, k ∉ reservedKeys u ∧ k ∉ ["values", "keys", "fields", "types"]
  union : ∀ ts a, u = .union ts a → ∃ rest, ts = .null {} :: rest ∧ P a.doc ∧ a.logical = .none ∧
    FieldExtra a.extra ∧ ∀ m ∈ rest, Other m
  struct : ∀ fs a, u = .struct fs a → ∀ f ∈ fs, HField N f

theorem _root_.Recap.FieldExtra.keys_of {x : Dict} (h : FieldExtra x) : ∀ k ∈ x.keys, k = "default" ∨ k = "name" := by
  cases h <;> simp [Dict.keys]

theorem _root_.Recap.FieldExtra.named {x : Dict} (h : FieldExtra x) : Dict.get? x "name" ≠ some .none := by
  cases h <;> simp [Dict.get?] <;> assumption

theorem _root_.Recap.FieldExtra.free {x : Dict} (h : FieldExtra x) (ts : List RType) (a : Attrs) :
    ∀ k ∈ x.keys, k ∉ reservedKeys (.union ts a) ∧ k ∉ ["values", "keys", "fields", "types"] := by
  intro k hk
  rcases h.keys_of k hk with rfl | rfl <;> exact ⟨by simp [reservedKeys], by decide⟩

theorem HPiece.piece {N : String → Prop} {u : RType} (h : HPiece (· = .none) N u) (hr : RealNode u) : Piece u := by
  refine ⟨⟨hr.2.2.2.1.1, fun k hk => (h.keys k hk).1, ?_⟩, hr, fun k hk => (h.keys k hk).2, ?_, h.alias⟩
  · rw [if_neg (by simp [h.proxy])]
    exact .inl h.alias
  · intro ts a e
    obtain ⟨rest, rfl, hd, hl, hx, ho⟩ := h.union ts a e
    intro _ _
    refine ⟨?_, ?_, .null {}, rest, rfl, isPlainNull_null, ?_, ?_⟩
    · exact hx.keys_of
    · exact hx.named
    · intro u hu hp
      have := plainNull_name hp
      have h' := (ho u hu).null
      cases u <;> simp_all [RType.typeName, isNull]
    · intro _ _ u hu
      have o := ho u (by rw [hu]; exact List.mem_singleton.mpr rfl)
      refine ⟨hd, ?_, o.name, o.default⟩
      have := o.union
      cases u <;> simp_all [RType.typeName, isUnion]

theorem shown_of {N : String → Prop} {t : RType} (h : Everywhere (HPiece (· = .none) N) t) (hr : RealType t) : Shown t :=
  fun u hu => (h u hu).piece (hr u hu)

/-! ## Flattening -/

variable {P : PyVal → Prop} {N : String → Prop}

theorem other_flatten {m : RType} (h : Other m) : Other (flatten m) := by
  obtain ⟨h1, h2, h3, h4⟩ := h
  cases m <;> simp [isUnion, isNull] at h1 h2 <;> simp only [flatten] <;>
    refine ⟨rfl, rfl, ?_, ?_⟩ <;> first | exact h3 | exact h4 | simp [RType.attrs, misplaced, Dict.keys]

/-- What is collected so far, and what may come. -/
def Collected (Q : RType → Prop) (acc : List RType) : Prop :=
  ∃ rest, acc = .null {} :: rest ∧ ∀ m ∈ rest, Other m ∧ Q m

theorem absorb_collected {Q : RType → Prop} {acc : List RType} {f : RType} (h : Collected Q acc)
    (hf : f = .null {} ∨ (Other f ∧ Q f) ∨ ∃ ts a, f = .union ts a ∧ Collected Q ts) : Collected Q (absorb acc f) := by
  obtain ⟨rest, rfl, hr⟩ := h
  rcases hf with rfl | ⟨ho, hp⟩ | ⟨ts, a, rfl, us, rfl, hu⟩
  · refine ⟨rest, ?_, hr⟩
    simp only [absorb]
    rw [if_pos (by simp [show pyEq (.null {}) (.null {}) = true from rfl])]
  · have hu := ho.union
    have : absorb (.null {} :: rest) f = .null {} :: rest ∨ absorb (.null {} :: rest) f = .null {} :: (rest ++ [f]) := by
      cases f <;> simp [isUnion] at hu <;> simp only [absorb] <;> split <;> simp
    rcases this with e | e <;> rw [e]
    · exact ⟨rest, rfl, hr⟩
    · refine ⟨rest ++ [f], rfl, ?_⟩
      intro m hm
      rcases List.mem_append.mp hm with hm | hm
      · exact hr m hm
      · rw [List.mem_singleton.mp hm]; exact ⟨ho, hp⟩
  · refine ⟨rest ++ us.filter (fun t => !(RType.null {} :: rest).any (fun u => pyEq u t)), ?_, ?_⟩
    · simp only [absorb]
      rw [List.filter_cons_of_neg (by simp [show pyEq (.null {}) (.null {}) = true from rfl])]
      simp
    · intro m hm
      rcases List.mem_append.mp hm with hm | hm
      · exact hr m hm
      · exact hu m (List.mem_filter.mp hm).1

theorem foldl_collected {Q : RType → Prop} : ∀ {fs acc : List RType}, Collected Q acc →
    (∀ f ∈ fs, f = .null {} ∨ (Other f ∧ Q f) ∨ ∃ ts a, f = .union ts a ∧ Collected Q ts) →
    Collected Q (fs.foldl absorb acc)
  | [], _, h, _ => h
  | f :: fs, acc, h, hf => by
    rw [List.foldl_cons]
    exact foldl_collected (absorb_collected h (hf f (List.mem_cons_self ..)))
      (fun g hg => hf g (List.mem_cons_of_mem _ hg))

theorem field_flatten {f : RType} (h : HField N f) : HField N (flatten f) := by
  obtain ⟨h1, n, h2, h3⟩ := h
  cases f <;> simp [isUnion, isNull] at h1
  · exact ⟨.inr rfl, n, h2, h3⟩
  · rw [flatten]
    exact ⟨.inl rfl, n, h2, h3⟩

theorem absorb_nil_null : absorb [] (.null {}) = [.null {}] := rfl

theorem hpiece_null : HPiece P N (.null {}) :=
  ⟨rfl, rfl, by simp [RType.attrs, Dict.keys], fun _ _ h => (nomatch h), fun _ _ h => (nomatch h)⟩

theorem hpiece_misplaced_list (e : RType) (l v : PyVal) (a : Attrs) : HPiece P N (.list e l v (misplaced a)) :=
  ⟨rfl, rfl, by simp [RType.attrs, misplaced, Dict.keys, reservedKeys], fun _ _ h => (nomatch h), fun _ _ h => (nomatch h)⟩

theorem hpiece_misplaced_map (k v : RType) (a : Attrs) : HPiece P N (.map k v (misplaced a)) :=
  ⟨rfl, rfl, by simp [RType.attrs, misplaced, Dict.keys, reservedKeys], fun _ _ h => (nomatch h), fun _ _ h => (nomatch h)⟩

mutual
theorem flatten_h : ∀ t : RType, Everywhere (HPiece P N) t → Everywhere (HPiece P N) (flatten t)
  | .union ts a, h => by
    have hc := (everywhere_iff.mp h).2
    have ih := flattenAll_h ts hc
    obtain ⟨rest, rfl, hd, hl, hx, ho⟩ := (everywhere_iff.mp h).1.union ts a rfl
    have ha := (everywhere_iff.mp h).1.alias
    have hk := (everywhere_iff.mp h).1.keys
    rw [flatten]
    have col : Collected (Everywhere (HPiece P N)) ((flattenAll (.null {} :: rest)).foldl absorb []) := by
      rw [flattenAll_eq, List.map_cons, List.foldl_cons, show flatten (.null {}) = .null {} from rfl, absorb_nil_null]
      refine foldl_collected ⟨[], rfl, by simp⟩ ?_
      intro f hf
      obtain ⟨m, hm, rfl⟩ := List.mem_map.mp hf
      refine .inr (.inl ⟨other_flatten (ho m hm), ih _ ?_⟩)
      rw [flattenAll_eq]
      exact List.mem_map.mpr ⟨m, List.mem_cons_of_mem _ hm, rfl⟩
    obtain ⟨r, e, hr⟩ := col
    rw [e]
    refine everywhere_iff.mpr ⟨⟨rfl, ha, hk, ?_, fun _ _ h => (nomatch h)⟩, ?_⟩
    · intro us b e
      cases e
      exact ⟨r, rfl, hd, hl, hx, fun m hm => (hr m hm).1⟩
    · intro m hm
      rcases List.mem_cons.mp hm with rfl | hm
      · exact everywhere_leaf hpiece_null rfl
      · exact (hr m hm).2
  | .struct fs a, h => by
    have ih := flattenAll_h fs (everywhere_iff.mp h).2
    have hp := (everywhere_iff.mp h).1
    have hfields : ∀ gs b, RType.struct (flattenAll fs) a = .struct gs b → ∀ f ∈ gs, HField N f := by
      intro gs b e f hf
      cases e
      rw [flattenAll_eq] at hf
      obtain ⟨g, hg, rfl⟩ := List.mem_map.mp hf
      exact field_flatten (hp.struct fs a rfl g hg)
    rw [flatten]
    exact everywhere_iff.mpr ⟨⟨rfl, hp.alias, hp.keys, fun _ _ h => (nomatch h), hfields⟩, ih⟩
  | .list e l v a, h => by
    have ih := flatten_h e ((everywhere_iff.mp h).2 e (List.mem_singleton.mpr rfl))
    rw [flatten]
    exact everywhere_iff.mpr ⟨hpiece_misplaced_list _ _ _ _, by simpa [children] using ih⟩
  | .map k v a, h => by
    have hc := (everywhere_iff.mp h).2
    have ih := flatten_h k (hc k (by simp [children]))
    have ih' := flatten_h v (hc v (by simp [children]))
    rw [flatten]
    exact everywhere_iff.mpr ⟨hpiece_misplaced_map _ _ _, by simpa [children] using ⟨ih, ih'⟩⟩
  | .null a, h => h
  | .bool a, h => h
  | .int .., h => h
  | .float .., h => h
  | .string .., h => h
  | .bytes .., h => h
  | .enum .., h => h
  | .proxy .., h => h
theorem flattenAll_h : ∀ ts : List RType, (∀ t ∈ ts, Everywhere (HPiece P N) t) →
    ∀ f ∈ flattenAll ts, Everywhere (HPiece P N) f
  | [], _ => by simp [flattenAll]
  | t :: ts, h => by
    have h1 := flatten_h t (h t (List.mem_cons_self ..))
    have h2 := flattenAll_h ts (fun u hu => h u (List.mem_cons_of_mem _ hu))
    rw [flattenAll]
    intro f hf
    rcases List.mem_cons.mp hf with rfl | hf
    · exact h1
    · exact h2 f hf
end

/-! ## Parsing -/

/-- What parsing gives. -/
def HShape (P : PyVal → Prop) (N : String → Prop) (x : Attrs) (t : RType) : Prop :=
  Everywhere (HPiece P N) t ∧ (t = .null x ∨ ∃ ts a, t = .union ts a) ∧
    Dict.get? t.attrs.extra "name" = Dict.get? x.extra "name"

theorem mem_keys_erase {d : Dict} {k k' : String} (h : k ∈ (Dict.erase d k').keys) : k ∈ d.keys ∧ k ≠ k' := by
  obtain ⟨kv, hkv, rfl⟩ := List.mem_map.mp h
  simp only [Dict.erase, List.mem_filter] at hkv
  exact ⟨List.mem_map.mpr ⟨kv, hkv.1, rfl⟩, by simpa using hkv.2⟩

theorem finish_h {x : Attrs} {t : RType} (hu : t.isUnion = false) (hn : t.isNull = false) (hx : Given x)
    (hd : P x.doc) (e : Dict) (he : t.attrs.extra = e ++ x.extra) (hdoc : t.attrs.doc = x.doc)
    (hal : t.attrs.alias = x.alias) (hp : t.isProxy = false)
    (hk : ∀ k ∈ e.keys, k ∉ reservedKeys t ∧ k ∉ ["values", "keys", "fields", "types"] ∧ k ≠ "default" ∧ k ≠ "name")
    (hf : ∀ fs a, t = .struct fs a → ∀ f ∈ fs, HField N f)
    (hc : ∀ c ∈ children t, Everywhere (HPiece P N) c) : HShape P N x (finish t) := by
  obtain ⟨g1, g2, g3, g4⟩ := hx
  rcases finish_cases t with ⟨h, -⟩ | ⟨-, -, h⟩
  · rw [hu, hn] at h; simp at h
  · rw [h]
    have hdef : Dict.get? t.attrs.extra "default" = .none := by
      rw [Dict.get?_eq_none_iff, he]
      simp only [Dict.keys, List.map_append, List.mem_append, not_or]
      refine ⟨fun h => (hk _ h).2.2.1 rfl, ?_⟩
      rcases g4 with g | ⟨n, g⟩ <;> rw [g] <;> simp
    have hnm : Dict.get? (promoted t.attrs) "name" = Dict.get? x.extra "name" := by
      have e1 : Dict.get? t.attrs.extra "name" = Dict.get? x.extra "name" := by
        rw [he, Dict.get?_append]
        have : Dict.get? e "name" = .none := Dict.get?_eq_none_iff.mpr (fun h => (hk _ h).2.2.2 rfl)
        simp [this]
      rw [← e1]
      unfold promoted
      cases Dict.get? t.attrs.extra "name" <;> simp [Dict.get?]
    have hprom : FieldExtra (promoted t.attrs) := by
      unfold promoted
      rw [show Dict.getD t.attrs.extra "default" .none = .none by simp [Dict.getD, hdef]]
      cases hname : Dict.get? t.attrs.extra "name" with
      | none => exact .default trivial
      | some n =>
        have : n ∈ (e ++ x.extra).map (·.2) ∧ ("name", n) ∈ e ++ x.extra := by
          have := Dict.mem_of_get? hname
          rw [he] at this
          exact ⟨List.mem_map.mpr ⟨_, this, rfl⟩, this⟩
        rcases List.mem_append.mp this.2 with h | h
        · exact absurd rfl ((hk "name" (List.mem_map.mpr ⟨_, h, rfl⟩)).2.2.2)
        · rcases g4 with g | ⟨s, g⟩
          · rw [g] at h; cases h
          · rw [g, List.mem_singleton] at h
            cases h
            exact .both trivial trivial (by simp)
    refine ⟨everywhere_iff.mpr ⟨⟨rfl, rfl, ?_, ?_, fun _ _ h => (nomatch h)⟩, ?_⟩, .inr ⟨_, _, rfl⟩, hnm⟩
    · exact hprom.free _ _
    · intro ts a e'
      cases e'
      refine ⟨_, rfl, by show P t.attrs.doc; rw [hdoc]; exact hd, rfl, hprom, ?_⟩
      intro m hm
      rw [List.mem_singleton.mp hm]
      refine ⟨by rw [isUnion_withAttrs]; exact hu, by rw [isNull_withAttrs]; exact hn, ?_, ?_⟩ <;>
        rw [attrs_withAttrs] <;> intro h <;> simp only [demoted] at h
      · first
          | exact (mem_keys_erase h).2 rfl
          | exact (mem_keys_erase (mem_keys_erase h).1).2 rfl
      · first
          | exact (mem_keys_erase h).2 rfl
          | exact (mem_keys_erase (mem_keys_erase h).1).2 rfl
    · intro m hm
      simp only [children, List.mem_cons, List.not_mem_nil, or_false] at hm
      rcases hm with rfl | rfl
      · exact everywhere_leaf hpiece_null rfl
      · refine everywhere_iff.mpr ⟨⟨by rw [proxy_withAttrs]; exact hp, by rw [attrs_withAttrs]; exact hal.trans g2, ?_, ?_, ?_⟩,
          by rw [children_withAttrs]; exact hc⟩
        · rw [attrs_withAttrs, reserved_withAttrs]
          intro k hk'
          simp only [demoted] at hk'
          have h1 := mem_keys_erase hk'
          have h2 := mem_keys_erase h1.1
          have h3 := h2.1
          rw [he] at h3
          simp only [Dict.keys, List.map_append, List.mem_append] at h3
          rcases h3 with h3 | h3
          · exact ⟨(hk k h3).1, (hk k h3).2.1⟩
          · rcases g4 with g | ⟨s, g⟩ <;> rw [g] at h3
            · cases h3
            · rw [List.map_singleton, List.mem_singleton] at h3
              subst h3
              first | exact absurd rfl h1.2 | exact absurd rfl h2.2
        · intro ts a e'
          cases t <;> simp [isUnion] at hu <;> cases e'
        · intro fs a e'
          cases t <;> cases e'
          exact hf _ _ rfl

theorem primitive_h {x : Attrs} (hx : Given x) (hd : P x.doc) {c : Primitive} {t : RType}
    (h : primitive x c = .ok t) : HShape P N x (finish t) := by
  cases c <;> cases h
  case void =>
    obtain ⟨g1, g2, g3, g4⟩ := hx
    rw [show finish (.null x) = .null x from rfl]
    refine ⟨everywhere_leaf ⟨rfl, g2, ?_, fun _ _ h => (nomatch h), fun _ _ h => (nomatch h)⟩ rfl, .inl rfl, rfl⟩
    rcases g4 with g | ⟨s, g⟩ <;> simp [RType.attrs, g, Dict.keys, reservedKeys]
  case date => exact finish_h rfl rfl hx hd [_] rfl rfl rfl rfl (by simp [Dict.keys, reservedKeys]) (fun _ _ h => nomatch h) (by simp [children])
  case timestamp => exact finish_h rfl rfl hx hd [_, _] rfl rfl rfl rfl (by simp [Dict.keys, reservedKeys]) (fun _ _ h => nomatch h) (by simp [children])
  case timestampLocalTz =>
    exact finish_h rfl rfl hx hd [_, _] rfl rfl rfl rfl (by simp [Dict.keys, reservedKeys]) (fun _ _ h => nomatch h) (by simp [children])
  case intervalYearMonth =>
    exact finish_h rfl rfl hx hd [_, _] rfl rfl rfl rfl (by simp [Dict.keys, reservedKeys]) (fun _ _ h => nomatch h) (by simp [children])
  case intervalDayTime =>
    exact finish_h rfl rfl hx hd [_, _] rfl rfl rfl rfl (by simp [Dict.keys, reservedKeys]) (fun _ _ h => nomatch h) (by simp [children])
  all_goals exact finish_h rfl rfl hx hd [] rfl rfl rfl rfl (by simp [Dict.keys]) (fun _ _ h => nomatch h) (by simp [children])

theorem collected_of {t : RType} (h : HShape P N {} t) :
    flatten t = .null {} ∨ (Other (flatten t) ∧ Everywhere (HPiece P N) (flatten t)) ∨
      ∃ ts a, flatten t = .union ts a ∧ Collected (Everywhere (HPiece P N)) ts := by
  obtain ⟨h, rfl | ⟨ts, a, rfl⟩, -⟩ := h
  · exact .inl rfl
  · have hf := flatten_h _ h
    refine .inr (.inr ⟨_, a, by rw [flatten], ?_⟩)
    rw [flatten] at hf
    obtain ⟨rest, e, -, -, -, ho⟩ := (everywhere_iff.mp hf).1.union _ _ rfl
    refine ⟨rest, e, fun m hm => ⟨ho m hm, (everywhere_iff.mp hf).2 m ?_⟩⟩
    simp only [children]
    rw [e]
    exact List.mem_cons_of_mem _ hm

theorem field_of {n : String} {c : Option String} {t : RType} (h : HShape P N (columnAttrs n c) t) (hn : N n) :
    HField N t ∧ Everywhere (HPiece P N) t := by
  obtain ⟨h1, h2, h3⟩ := h
  refine ⟨⟨?_, n, hn, by rw [h3]; rfl⟩, h1⟩
  rcases h2 with rfl | ⟨ts, a, rfl⟩
  · exact .inr rfl
  · exact .inl rfl

mutual
theorem parse_h (h0 : P .none) : ∀ (x : Attrs) (h : HType) (t : RType), Given x → P x.doc → FieldNames N h → Hive.parse x h = .ok t →
    HShape P N x t
  | x, .prim c, t, hx, hd, hN, h => by
    rw [Hive.parse] at h
    obtain ⟨u, h1, h⟩ := bind_ok h
    cases h
    exact primitive_h hx hd h1
  | x, .decimal p s, t, hx, hd, hN, h => by
    rw [Hive.parse] at h
    split at h
    · cases h
    · cases h
      exact finish_h rfl rfl hx hd [_, _] rfl rfl rfl rfl (by simp [Dict.keys, reservedKeys]) (fun _ _ h => nomatch h) (by simp [children])
  | x, .varchar n, t, hx, hd, hN, h => by
    rw [Hive.parse] at h
    cases h
    exact finish_h rfl rfl hx hd [] rfl rfl rfl rfl (by simp [Dict.keys]) (fun _ _ h => nomatch h) (by simp [children])
  | x, .char n, t, hx, hd, hN, h => by
    rw [Hive.parse] at h
    cases h
    exact finish_h rfl rfl hx hd [] rfl rfl rfl rfl (by simp [Dict.keys]) (fun _ _ h => nomatch h) (by simp [children])
  | x, .map k v, t, hx, hd, hN, h => by
    rw [Hive.parse] at h
    obtain ⟨k', h1, h⟩ := bind_ok h
    obtain ⟨v', h2, h⟩ := bind_ok h
    cases h
    rw [FieldNames] at hN
    have i1 := (parse_h h0 _ _ _ given_empty h0 hN.1 h1).1
    have i2 := (parse_h h0 _ _ _ given_empty h0 hN.2 h2).1
    exact finish_h rfl rfl hx hd [] rfl rfl rfl rfl (by simp [Dict.keys]) (fun _ _ h => nomatch h) (by simpa [children] using ⟨i1, i2⟩)
  | x, .list e, t, hx, hd, hN, h => by
    rw [Hive.parse] at h
    obtain ⟨e', h1, h⟩ := bind_ok h
    cases h
    rw [FieldNames] at hN
    have i1 := (parse_h h0 _ _ _ given_empty h0 hN h1).1
    exact finish_h rfl rfl hx hd [] rfl rfl rfl rfl (by simp [Dict.keys]) (fun _ _ h => nomatch h) (by simpa [children] using i1)
  | x, .union ts, t, hx, hd, hN, h => by
    rw [Hive.parse] at h
    obtain ⟨ts', h1, h⟩ := bind_ok h
    cases h
    rw [FieldNames] at hN
    have i := parseAll_h h0 _ _ hN h1
    obtain ⟨g1, g2, g3, g4⟩ := hx
    have col : Collected (Everywhere (HPiece P N)) ((flattenAll (.null {} :: ts')).foldl absorb []) := by
      rw [flattenAll_eq, List.map_cons, List.foldl_cons, show flatten (.null {}) = .null {} from rfl, absorb_nil_null]
      refine foldl_collected ⟨[], rfl, by simp⟩ ?_
      intro f hf
      obtain ⟨m, hm, rfl⟩ := List.mem_map.mp hf
      exact collected_of (i m hm)
    have hext : FieldExtra (("default", PyVal.none) :: x.extra) := by
      rcases g4 with g | ⟨s, g⟩ <;> rw [g]
      · exact .default trivial
      · exact .both trivial trivial (by simp)
    have hnm : Dict.get? (("default", PyVal.none) :: x.extra) "name" = Dict.get? x.extra "name" := by
      simp [Dict.get?]
    obtain ⟨r, e, hr⟩ := col
    rw [flatten, e]
    show HShape P N x (.union _ _)
    refine ⟨everywhere_iff.mpr ⟨⟨rfl, g2, ?_, ?_, fun _ _ h => (nomatch h)⟩, ?_⟩, .inr ⟨_, _, rfl⟩, hnm⟩
    · exact hext.free _ _
    · intro us b e
      cases e
      exact ⟨r, rfl, hd, g1, hext, fun m hm => (hr m hm).1⟩
    · intro m hm
      rcases List.mem_cons.mp hm with rfl | hm
      · exact everywhere_leaf hpiece_null rfl
      · exact (hr m hm).2
  | x, .struct fs, t, hx, hd, hN, h => by
    rw [Hive.parse] at h
    obtain ⟨fs', h1, h⟩ := bind_ok h
    cases h
    rw [FieldNames] at hN
    have i := parseFields_h h0 _ _ hN h1
    exact finish_h rfl rfl hx hd [] rfl rfl rfl rfl (by simp [Dict.keys])
      (fun fs a e f hf => by cases e; exact (i f hf).1) (fun f hf => (i f hf).2)
theorem parseAll_h (h0 : P .none) : ∀ (hs : List HType) (ts : List RType), FieldNamesAll N hs → Hive.parseAll hs = .ok ts → ∀ t ∈ ts, HShape P N {} t
  | [], ts, _, h => by
    rw [Hive.parseAll] at h
    cases h
    simp
  | t :: hs, ts, hN, h => by
    rw [FieldNamesAll] at hN
    rw [Hive.parseAll] at h
    obtain ⟨u, h1, h⟩ := bind_ok h
    obtain ⟨us, h2, h⟩ := bind_ok h
    cases h
    have i1 := parse_h h0 _ _ _ given_empty h0 hN.1 h1
    have i2 := parseAll_h h0 _ _ hN.2 h2
    intro t ht
    rcases List.mem_cons.mp ht with rfl | ht
    · exact i1
    · exact i2 t ht
theorem parseFields_h (h0 : P .none) : ∀ (hs : List (String × HType)) (ts : List RType), FieldNamesIn N hs →
    parseFields hs = .ok ts → ∀ t ∈ ts, HField N t ∧ Everywhere (HPiece P N) t
  | [], ts, _, h => by
    rw [parseFields] at h
    cases h
    simp
  | (n, t) :: hs, ts, hN, h => by
    rw [FieldNamesIn] at hN
    rw [parseFields] at h
    obtain ⟨u, h1, h⟩ := bind_ok h
    obtain ⟨us, h2, h⟩ := bind_ok h
    cases h
    have i1 := field_of (parse_h h0 (columnAttrs n .none) _ _ (given_column ..) h0 hN.1.2 h1) hN.1.1
    have i2 := parseFields_h h0 _ _ hN.2 h2
    intro t ht
    rcases List.mem_cons.mp ht with rfl | ht
    · exact i1
    · exact i2 t ht
end

theorem parseColumns_h (h0 : P .none) : ∀ (cs : List HColumn) (ts : List RType), parseColumns cs = .ok ts →
    (∀ c ∈ cs, P (columnAttrs c.name c.comment).doc) → (∀ c ∈ cs, N c.name ∧ FieldNames N c.type) →
    ∀ t ∈ ts, HField N t ∧ Everywhere (HPiece P N) t ∧ RealType t
  | [], ts, h, _, _ => by
    rw [parseColumns] at h
    cases h
    simp
  | c :: cs, ts, h, hd, hN => by
    rw [parseColumns] at h
    obtain ⟨u, h1, h⟩ := bind_ok h
    obtain ⟨us, h2, h⟩ := bind_ok h
    cases h
    have hc := hN c (List.mem_cons_self ..)
    have i1 := field_of (parse_h h0 _ _ _ (given_column ..) (hd c (List.mem_cons_self ..)) hc.2 h1) hc.1
    have i2 := parseColumns_h h0 _ _ h2 (fun d hd' => hd d (List.mem_cons_of_mem _ hd'))
      (fun d hd' => hN d (List.mem_cons_of_mem _ hd'))
    intro t ht
    rcases List.mem_cons.mp ht with rfl | ht
    · exact ⟨i1.1, i1.2, parse_real _ _ _ (given_column ..) h1⟩
    · exact i2 t ht

mutual
theorem fieldNames_true : ∀ h : HType, FieldNames (fun _ => True) h
  | .prim c => by rw [FieldNames] <;> simp
  | .decimal p s => by rw [FieldNames] <;> simp
  | .varchar n => by rw [FieldNames] <;> simp
  | .char n => by rw [FieldNames] <;> simp
  | .map k v => by rw [FieldNames]; exact ⟨fieldNames_true k, fieldNames_true v⟩
  | .list e => by rw [FieldNames]; exact fieldNames_true e
  | .union ts => by rw [FieldNames]; exact fieldNamesAll_true ts
  | .struct fs => by rw [FieldNames]; exact fieldNamesIn_true fs
theorem fieldNamesAll_true : ∀ hs : List HType, FieldNamesAll (fun _ => True) hs
  | [] => trivial
  | h :: hs => by rw [FieldNamesAll]; exact ⟨fieldNames_true h, fieldNamesAll_true hs⟩
theorem fieldNamesIn_true : ∀ hs : List (String × HType), FieldNamesIn (fun _ => True) hs
  | [] => trivial
  | (n, h) :: hs => by rw [FieldNamesIn]; exact ⟨⟨trivial, fieldNames_true h⟩, fieldNamesIn_true hs⟩
end

theorem parseColumns_shown (cs : List HColumn) (ts : List RType) (h : parseColumns cs = .ok ts)
    (hd : ∀ c ∈ cs, (columnAttrs c.name c.comment).doc = .none) : ∀ t ∈ ts, Shown t := by
  intro t ht
  obtain ⟨-, h1, h2⟩ := parseColumns_h (P := (· = .none)) (N := fun _ => True) rfl cs ts h hd
    (fun c _ => ⟨trivial, fieldNames_true _⟩) t ht
  exact shown_of h1 h2

end Recap.Hive
