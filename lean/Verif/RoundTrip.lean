import Verif.ParseThms

/-! # Writing and reading back without compaction: lemmas for C01 -/

namespace Recap

open Spec

theorem checkRange_iff {v : PyVal} {lo hi : Int} :
    RType.checkRange v lo hi = .ok () ↔ NumBetween v lo hi := by
  refine ⟨checkRange_ok, fun h => ?_⟩
  unfold RType.checkRange
  cases v <;> simp only [NumBetween] at h <;>
    simp only [PyVal.ltInt, PyVal.gtInt, bind, Except.bind, pure, Except.pure]
  · rename_i b
    have h1 : ¬ boolInt b < lo := by unfold boolInt; omega
    have h2 : ¬ hi < boolInt b := by unfold boolInt; omega
    simp [h1, h2]
  · rename_i i
    have h1 : ¬ i < lo := by omega
    have h2 : ¬ hi < i := by omega
    simp [h1, h2]
  · rename_i m e
    have h1 : ¬ m < lo * 2 ^ e := by omega
    have h2 : ¬ hi * 2 ^ e < m := by omega
    simp [h1, h2]

theorem checkSize_iff {v w : PyVal} : RType.checkSize v w = .ok () ↔ SizeOK v w := by
  refine ⟨checkSize_ok, fun h => ?_⟩
  unfold RType.checkSize
  rcases h with ⟨rfl, h⟩ | h
  · simp [h, PyVal.isNone, pure, Except.pure]
  · have : v.isNone = false := by cases v <;> simp_all [NumBetween, PyVal.isNone]
    simp only [this, Bool.and_false, Bool.false_eq_true, if_false]
    exact checkRange_iff.mpr h

mutual
theorem validate_of_bounded : ∀ t : RType, Bounded t → t.validate = .ok ()
  | .int b s a, h => by simp only [Bounded] at h; exact checkRange_iff.mpr h
  | .float b a, h => by simp only [Bounded] at h; exact checkRange_iff.mpr h
  | .string b v a, h => by simp only [Bounded] at h; exact checkSize_iff.mpr h
  | .bytes b v a, h => by simp only [Bounded] at h; exact checkSize_iff.mpr h
  | .list t l v a, h => by
    simp only [Bounded] at h
    simp only [RType.validate, checkSize_iff.mpr h.1, bind, Except.bind]
    exact validate_of_bounded t h.2
  | .map k v a, h => by
    simp only [Bounded] at h
    simp only [RType.validate, validate_of_bounded k h.1, bind, Except.bind]
    exact validate_of_bounded v h.2
  | .struct fs a, h => by
    simp only [Bounded] at h
    simp only [RType.validate]
    exact validateList_of_bounded fs h
  | .null _, _ => rfl
  | .bool _, _ => rfl
  | .enum .., _ => rfl
  | .union .., _ => rfl
  | .proxy .., _ => rfl
theorem validateList_of_bounded : ∀ ts : List RType, BoundedAll ts → RType.validateList ts = .ok ()
  | [], _ => rfl
  | t :: ts, h => by
    simp only [BoundedAll] at h
    simp only [RType.validateList, validate_of_bounded t h.1, bind, Except.bind]
    exact validateList_of_bounded ts h.2
end

mutual
theorem bounded_shape : ∀ t : RType, Bounded t → Bounded (shape t)
  | .list t l v a, h => by
    simp only [Bounded] at h; simp only [shape, Bounded]; exact ⟨h.1, bounded_shape t h.2⟩
  | .map k v a, h => by
    simp only [Bounded] at h; simp only [shape, Bounded]
    exact ⟨bounded_shape k h.1, bounded_shape v h.2⟩
  | .struct fs a, h => by
    simp only [Bounded] at h; simp only [shape, Bounded]; exact boundedAll_shape fs h
  | .union fs a, h => by
    simp only [Bounded] at h; simp only [shape, Bounded]; exact boundedAll_shape fs h
  | .proxy .., _ => by simp only [shape, Bounded]
  | .null _, h => h
  | .bool _, h => h
  | .int .., h => h
  | .float .., h => h
  | .string .., h => h
  | .bytes .., h => h
  | .enum .., h => h
theorem boundedAll_shape : ∀ ts : List RType, BoundedAll ts → BoundedAll (shapeAll ts)
  | [], _ => by simp only [shapeAll, BoundedAll]
  | t :: ts, h => by
    simp only [BoundedAll] at h; simp only [shapeAll, BoundedAll]
    exact ⟨bounded_shape t h.1, boundedAll_shape ts h.2⟩
end

mutual
theorem definedAliases_shape : ∀ t : RType, definedAliases (shape t) = definedAliases t
  | .list t l v a => by simp only [shape, definedAliases, definedAliases_shape t]
  | .map k v a => by simp only [shape, definedAliases, definedAliases_shape k, definedAliases_shape v]
  | .struct fs a => by simp only [shape, definedAliases, definedAliasesAll_shape fs]
  | .union fs a => by simp only [shape, definedAliases, definedAliasesAll_shape fs]
  | .proxy .. => by simp only [shape, definedAliases]
  | .null _ => rfl
  | .bool _ => rfl
  | .int .. => rfl
  | .float .. => rfl
  | .string .. => rfl
  | .bytes .. => rfl
  | .enum .. => rfl
theorem definedAliasesAll_shape : ∀ ts : List RType,
    definedAliasesAll (shapeAll ts) = definedAliasesAll ts
  | [] => rfl
  | t :: ts => by simp only [shapeAll, definedAliasesAll, definedAliases_shape t, definedAliasesAll_shape ts]
end

/-! ## The written dictionary -/

/-- What `to_dict` writes before it adds the attributes of the class. -/
def attrDict (a : Attrs) : Dict := [("alias", a.alias), ("logical", a.logical), ("doc", a.doc)] ++ a.extra

theorem baseDict_eq {t : RType} (hn : t.attrs.extra.keys.Nodup)
    (hk : ∀ k ∈ t.attrs.extra.keys, k ∉ ["type", "alias", "logical", "doc"]) :
    baseDict t = ("type", .str t.typeName) :: attrDict t.attrs := by
  unfold baseDict attrDict
  rw [Dict.update_of_disjoint _ hn]
  · rfl
  · intro k hk'; simpa [Dict.keys] using hk k hk'

theorem attrDict_keys {a : Attrs} {k : String} (h : k ∈ (attrDict a).keys) :
    k = "alias" ∨ k = "logical" ∨ k = "doc" ∨ k ∈ a.extra.keys := by
  simpa [attrDict, Dict.keys] using h

theorem get?_attrDict_other {a : Attrs} {ps : Dict} {k : String}
    (h : k ∉ ["alias", "logical", "doc"]) (he : k ∉ a.extra.keys) :
    Dict.get? (attrDict a ++ ps) k = Dict.get? ps k := by
  rw [Dict.get?_append]
  have : Dict.get? (attrDict a) k = .none := by
    rw [Dict.get?_eq_none_iff]
    intro hm
    rcases attrDict_keys hm with e | e | e | e <;> simp_all
  rw [this]

/-- `**kwargs` written by `to_dict` bind to the attributes they came from. -/
theorem mkAttrs_attrDict {a : Attrs} {ps : Dict} {names : List String}
    (hps : ∀ k ∈ ps.keys, k ∈ names)
    (hnames : ∀ k ∈ names, k ∉ ["alias", "logical", "doc", "self", "type_"])
    (hfree : ∀ k ∈ a.extra.keys, k ∉ ["alias", "logical", "doc", "self", "type_"] ∧ k ∉ names) :
    mkAttrs names (attrDict a ++ ps) = .ok a := by
  have h1 : ∀ k ∈ ["self", "type_"], Dict.has (attrDict a ++ ps) k = false := by
    intro k hk
    rw [Dict.has_eq_false_iff]
    intro hm
    simp only [Dict.keys_append, List.mem_append] at hm
    rcases hm with hm | hm
    · rcases attrDict_keys hm with e | e | e | e
      · subst e; simp at hk
      · subst e; simp at hk
      · subst e; simp at hk
      · have := (hfree k e).1; simp_all
    · have := hnames k (hps k hm); simp_all
  have h2 : (attrDict a ++ ps).filter (fun kv => !(names ++ ["logical", "alias", "doc"]).contains kv.1) = a.extra := by
    rw [List.filter_append]
    have e1 : (attrDict a).filter (fun kv => !(names ++ ["logical", "alias", "doc"]).contains kv.1) = a.extra := by
      unfold attrDict
      rw [List.filter_append]
      have : a.extra.filter (fun kv => !(names ++ ["logical", "alias", "doc"]).contains kv.1) = a.extra := by
        rw [List.filter_eq_self]
        intro kv hkv
        have := hfree kv.1 (List.mem_map_of_mem hkv)
        simp only [List.mem_cons, List.not_mem_nil, or_false, not_or] at this
        simp [this]
      rw [this]
      simp
    have e2 : ps.filter (fun kv => !(names ++ ["logical", "alias", "doc"]).contains kv.1) = [] := by
      rw [List.filter_eq_nil_iff]
      intro kv hkv
      have := hps kv.1 (List.mem_map_of_mem hkv)
      simp [this]
    rw [e1, e2, List.append_nil]
  unfold mkAttrs
  rw [h1 "self" (by simp), h1 "type_" (by simp), h2]
  simp only [Bool.or_self, Bool.false_eq_true, if_false]
  congr 1

/-- Reading a written dictionary: the `optional` rewrite does not apply. -/
theorem fromDict_written (n : String) (a : Attrs) (ps : Dict) (reg : Registry)
    (hps : ∀ k ∈ ps.keys, k ∉ ["type", "optional"])
    (hfree : ∀ k ∈ a.extra.keys, k ∉ ["type", "optional"]) :
    fromDict (.dict (("type", .str n) :: (attrDict a ++ ps))) reg =
      (construct fromDict (.str n) (attrDict a ++ ps) reg >>= fun r => finish r.1 r.2) := by
  have hm : ∀ k ∈ ["type", "optional"], k ∉ Dict.keys (attrDict a ++ ps) := by
    intro k hk hm
    simp only [Dict.keys_append, List.mem_append] at hm
    rcases hm with hm | hm
    · rcases attrDict_keys hm with e | e | e | e
      · subst e; simp at hk
      · subst e; simp at hk
      · subst e; simp at hk
      · exact hfree k e hk
    · exact hps k hm hk
  obtain ⟨t1, t2, t3⟩ := keyFree (hm "type" (by simp))
  obtain ⟨o1, o2, o3⟩ := keyFree (hm "optional" (by simp))
  generalize attrDict a ++ ps = kw at *
  rw [fromDict_eq]
  have e1 : prepare (("type", .str n) :: kw) = .ok (("type", .str n) :: kw) := by
    simp [prepare, Dict.getD, Dict.get?_cons, o1, PyVal.isNone, PyVal.truthy, Dict.erase_cons, o3]
  have g1 : Dict.getD (("type", .str n) :: kw) "type" .none = .str n := rfl
  have g3 : Dict.erase (("type", .str n) :: kw) "type" = kw := by simp [Dict.erase_cons, t3]
  simp only [normalise, bind, Except.bind, e1, g1, g3]

theorem set_attrDict {n : String} {a : Attrs} {ps : Dict} {k : String} {v : PyVal}
    (h : k ∉ ["type", "alias", "logical", "doc"]) (he : k ∉ a.extra.keys) (hp : k ∉ ps.keys) :
    Dict.set (("type", .str n) :: (attrDict a ++ ps)) k v =
      ("type", .str n) :: (attrDict a ++ (ps ++ [(k, v)])) := by
  rw [Dict.set_of_not_mem]
  · simp
  · simp only [Dict.keys_cons, Dict.keys_append, List.mem_cons, List.mem_append, not_or]
    refine ⟨?_, ?_, hp⟩
    · intro e; subst e; simp at h
    · intro e; rcases attrDict_keys e with e | e | e | e <;> simp_all

/-- `finish` on a bounded type whose alias, if any, is new and fully qualified. -/
theorem finish_ok {t : RType} {reg : Registry} (hb : Bounded t) (hp : t.isProxy = false)
    (ha : t.attrs.alias = .none ∨ ∃ s, t.attrs.alias = .str s ∧ FullyQualified s ∧ s ∉ names reg) :
    ∃ reg', finish t reg = .ok (t, reg') := by
  unfold finish
  simp only [validate_of_bounded t hb, bind, Except.bind]
  rcases ha with h | ⟨s, h, h1, h2⟩
  · simp [h, PyVal.isNone, pure, Except.pure]
  · obtain ⟨r, hr⟩ := (C10_alias_grammar reg t s h h2).mpr h1
    exact ⟨r, by simp [h, hp, hr, PyVal.isNone, pure, Except.pure]⟩

theorem finish_proxy_ok {r : Option (List (String × RType))} {a : Attrs} {reg : Registry} :
    finish (.proxy r a) reg = .ok (.proxy r a, reg) := by
  simp [finish, RType.validate, RType.isProxy, bind, Except.bind, pure, Except.pure]

end Recap
