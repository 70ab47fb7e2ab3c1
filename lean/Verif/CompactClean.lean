import Verif.CompactRead

/-! # Compacting the documents of `Doc`: lemmas for C02 – C05 -/

set_option autoImplicit false

namespace Recap

open Spec

/-! ## Dropping default values -/

theorem dropDefaults_cons {pd : Dict} (k : String) (v : PyVal) (d : Dict) (h : Dict.get? pd k = .none) :
    dropDefaults pd ((k, v) :: d) = (k, v) :: dropDefaults pd d := by
  unfold dropDefaults
  rw [List.filter_cons_of_pos]
  simp only [h]

theorem dropDefaults_append (pd d e : Dict) :
    dropDefaults pd (d ++ e) = dropDefaults pd d ++ dropDefaults pd e := by
  unfold dropDefaults; rw [List.filter_append]

theorem dropDefaults_keys {pd d : Dict} {k : String} (h : k ∈ (dropDefaults pd d).keys) : k ∈ d.keys := by
  obtain ⟨kv, h1, rfl⟩ := List.mem_map.mp h
  exact List.mem_map_of_mem (List.mem_filter.mp h1).1

theorem dropDefaults_nodup {pd d : Dict} (h : d.keys.Nodup) : (dropDefaults pd d).keys.Nodup :=
  h.sublist (List.filter_sublist.map _)

theorem dropDefaults_free {pd d : Dict} (h : ∀ k ∈ d.keys, Dict.get? pd k = .none) : dropDefaults pd d = d := by
  unfold dropDefaults
  rw [List.filter_eq_self]
  intro kv hkv
  simp only [h kv.1 (List.mem_map_of_mem hkv)]

theorem get?_drop {pd d : Dict} (hn : d.keys.Nodup) (k : String) :
    Dict.get? (dropDefaults pd d) k =
      (match Dict.get? pd k, Dict.get? d k with
       | some dv, some v => if PyVal.pyEq dv v then .none else some v
       | _, r => r) := by
  induction d with
  | nil => simp [dropDefaults, Dict.get?]
  | cons kv d ih =>
    obtain ⟨k', v⟩ := kv
    simp only [Dict.keys_cons, List.nodup_cons] at hn
    have ih := ih hn.2
    unfold dropDefaults at ih ⊢
    rw [List.filter_cons]
    by_cases hk : k' = k
    · subst hk
      rw [Dict.get?_cons, if_pos rfl]
      cases hp : Dict.get? pd k' with
      | none => simp [Dict.get?_cons]
      | some dv =>
        by_cases he : PyVal.pyEq dv v = true
        · simp only [he, Bool.not_true, Bool.false_eq_true, if_false, if_true]
          rw [Dict.get?_eq_none_iff]
          exact fun h => hn.1 (dropDefaults_keys h)
        · simp [he, Dict.get?_cons]
    · rw [Dict.get?_cons_ne _ _ hk, ← ih]
      have aux : ∀ (b : Bool) (r : Dict), Dict.get? (if b = true then (k', v) :: r else r) k = Dict.get? r k := by
        intro b r
        cases b
        · rfl
        · exact Dict.get?_cons_ne _ _ hk
      exact aux _ _

theorem drop_keep {pd d : Dict} {k : String} (hn : d.keys.Nodup) (h : Dict.get? pd k = .none) :
    Dict.get? (dropDefaults pd d) k = Dict.get? d k := by
  rw [get?_drop hn, h]

theorem pyEq_none_left {v : PyVal} (h : PyVal.pyEq .none v = true) : v = .none := by
  cases v <;> simp [PyVal.pyEq] at h ⊢

theorem drop_none {pd d : Dict} {k : String} (hn : d.keys.Nodup) (h : Dict.get? pd k = some .none) :
    Dict.getD (dropDefaults pd d) k .none = Dict.getD d k .none := by
  unfold Dict.getD
  rw [get?_drop hn, h]
  cases hd : Dict.get? d k with
  | none => rfl
  | some v =>
    simp only
    split
    · rename_i he; rw [pyEq_none_left he]; rfl
    · rfl

theorem drop_flag {pd d : Dict} {k : String} {w : PyVal} (hn : d.keys.Nodup)
    (h : Dict.get? pd k = some (.bool true)) (hf : Flag d k w) : Flag (dropDefaults pd d) k w := by
  unfold Flag Dict.getD at *
  rw [get?_drop hn, h]
  cases hd : Dict.get? d k with
  | none => rw [hd] at hf; exact hf
  | some v =>
    rw [hd] at hf
    simp only [Option.getD_some] at hf ⊢
    split
    · rename_i he; exact pyEq_trans _ _ _ he hf
    · exact hf

theorem extraOf_drop {pd d : Dict} {names : List String}
    (h : ∀ k ∈ pd.keys, k ∈ names ++ ["logical", "alias", "doc"]) :
    extraOf names (dropDefaults pd d) = extraOf names d := by
  unfold extraOf dropDefaults
  rw [List.filter_filter]
  apply List.filter_congr
  intro kv _
  cases hp : Dict.get? pd kv.1 with
  | none => simp
  | some dv =>
    have : kv.1 ∈ pd.keys := by rw [← Dict.has_iff]; simp [Dict.has, hp]
    have := h _ this
    simp at this
    simp [this]

theorem KwOK.drop {kw : Dict} (h : KwOK kw) (pd : Dict) : KwOK (dropDefaults pd kw) :=
  ⟨dropDefaults_nodup h.nodup, fun k hk hm => h.special k hk (dropDefaults_keys hm)⟩

theorem AttrsOf.drop {kw : Dict} {names : List String} {a : Attrs} (h : AttrsOf names kw a) {pd : Dict}
    (hn : kw.keys.Nodup) (hb : ∀ k ∈ ["alias", "logical", "doc"], Dict.get? pd k = some .none)
    (hp : ∀ k ∈ pd.keys, k ∈ names ++ ["logical", "alias", "doc"]) :
    AttrsOf names (dropDefaults pd kw) a :=
  ⟨by rw [drop_none hn (hb _ (by simp))]; exact h.alias,
    by rw [drop_none hn (hb _ (by simp))]; exact h.logical,
    by rw [drop_none hn (hb _ (by simp))]; exact h.doc, by rw [extraOf_drop hp]; exact h.extra⟩

/-! ## Replacing nested documents -/

theorem extraOf_set {kw : Dict} {names : List String} {k : String} {v : PyVal} (h : k ∈ names) :
    extraOf names (kw.set k v) = extraOf names kw := by
  unfold extraOf
  induction kw with
  | nil => simp [Dict.set, h]
  | cons kv kw ih =>
    obtain ⟨k', x⟩ := kv
    simp only [Dict.set]
    split
    · subst_vars
      rw [List.filter_cons_of_neg, List.filter_cons_of_neg] <;> simp [h]
    · rw [List.filter_cons, List.filter_cons, ih]

theorem getD_set_ne {kw : Dict} {k k' : String} {v w : PyVal} (h : k' ≠ k) :
    Dict.getD (kw.set k' v) k w = Dict.getD kw k w := by
  unfold Dict.getD; rw [Dict.get?_set_ne _ _ h]

theorem KwOK.set {kw : Dict} (h : KwOK kw) {k : String} (v : PyVal)
    (hk : k ∉ ["type", "optional", "self", "type_"]) : KwOK (kw.set k v) := by
  refine ⟨Dict.nodup_keys_set _ _ h.nodup, fun k' hk' hm => ?_⟩
  rw [Dict.keys_set] at hm
  split at hm
  · exact h.special k' hk' hm
  · rcases List.mem_append.mp hm with hm | hm
    · exact h.special k' hk' hm
    · simp at hm; subst hm; exact hk hk'

theorem AttrsOf.set {kw : Dict} {names : List String} {a : Attrs} (h : AttrsOf names kw a) {k : String} (v : PyVal)
    (hk : k ∈ names) (hb : k ∉ ["alias", "logical", "doc"]) : AttrsOf names (kw.set k v) a := by
  simp only [List.mem_cons, List.not_mem_nil, or_false, not_or] at hb
  exact ⟨by rw [getD_set_ne hb.1]; exact h.alias, by rw [getD_set_ne hb.2.1]; exact h.logical,
    by rw [getD_set_ne hb.2.2]; exact h.doc, by rw [extraOf_set hk]; exact h.extra⟩

theorem mem_keys_of_get? {d : Dict} {k : String} {v : PyVal} (h : Dict.get? d k = some v) : k ∈ d.keys := by
  rw [← Dict.has_iff]; simp [Dict.has, h]

theorem set_keys {d : Dict} {k : String} {v w : PyVal} (h : Dict.get? d k = some w) :
    (d.set k v).keys = d.keys := by
  rw [Dict.keys_set, if_pos (mem_keys_of_get? h)]

theorem set_append {d e : Dict} {k : String} {v w : PyVal} (h : Dict.get? d k = some w) :
    (d ++ e).set k v = d.set k v ++ e := by
  induction d with
  | nil => simp [Dict.get?] at h
  | cons kv d ih =>
    obtain ⟨k', x⟩ := kv
    simp only [List.cons_append, Dict.set]
    split
    · rfl
    · rename_i hk
      rw [Dict.get?_cons_ne _ _ hk] at h
      rw [ih h]; rfl

theorem node_set (n : String) (kw : Dict) {k : String} (v : PyVal) (h : k ≠ "type") :
    Dict.set (node n kw) k v = node n (kw.set k v) := by
  have : "type" ≠ k := fun e => h e.symm
  simp [node, Dict.set, this]

theorem get?_append_left {d e : Dict} {k : String} (h : k ∉ e.keys) : Dict.get? (d ++ e) k = Dict.get? d k := by
  rw [Dict.get?_append, Dict.get?_eq_none_iff.mpr h]
  cases Dict.get? d k <;> rfl

/-- Entries that are not nested types do not matter for the cleaning of nested types. -/
theorem cleanNested_append {f : PyVal → Except PyErr PyVal} {n : String} {d d' e : Dict}
    (he : ∀ k ∈ ["values", "keys", "fields", "types"], k ∉ e.keys) (h : cleanNested f n d = .ok d') :
    cleanNested f n (d ++ e) = .ok (d' ++ e) := by
  have g : ∀ k ∈ ["values", "keys", "fields", "types"], Dict.get? (d ++ e) k = Dict.get? d k :=
    fun k hk => get?_append_left (he k hk)
  by_cases hn : n ∈ ["list", "map", "struct", "union"]
  · simp only [List.mem_cons, List.not_mem_nil, or_false] at hn
    rcases hn with rfl | rfl | rfl | rfl
    · rw [cleanNested_list] at h ⊢
      rw [g _ (by simp)]
      cases hv : Dict.get? d "values" with
      | none => rw [hv] at h; cases h
      | some v =>
        rw [hv] at h
        simp only at h ⊢
        obtain ⟨v', h1, h2⟩ := ok_bind h
        cases h2
        simp only [bind, Except.bind, h1, pure, Except.pure]; rw [set_append hv]
    · rw [cleanNested_map] at h ⊢
      rw [g _ (by simp), g _ (by simp)]
      cases hv : Dict.get? d "values" with
      | none => rw [hv] at h; cases h
      | some v =>
        rw [hv] at h
        simp only at h ⊢
        obtain ⟨v', h1, h2⟩ := ok_bind h
        cases hk : Dict.get? d "keys" with
        | none => rw [hk] at h2; cases h2
        | some k =>
          rw [hk] at h2
          simp only at h2 ⊢
          obtain ⟨k', h3, h4⟩ := ok_bind h2
          cases h4
          have hk2 : Dict.get? (d.set "values" v') "keys" = some k := by
            rw [Dict.get?_set_ne _ _ (by decide), hk]
          simp only [bind, Except.bind, h1, h3, pure, Except.pure]
          rw [set_append hv, set_append hk2]
    · rw [cleanNested_struct] at h ⊢
      rw [g _ (by simp)]
      cases hv : Dict.get? d "fields" with
      | none => rw [hv] at h; cases h; rfl
      | some v =>
        rw [hv] at h
        simp only at h ⊢
        obtain ⟨xs, h1, h2⟩ := ok_bind h
        obtain ⟨ys, h3, h4⟩ := ok_bind h2
        cases h4
        simp only [bind, Except.bind, h1, h3, pure, Except.pure]
        rw [set_append hv]
    · rw [cleanNested_union] at h ⊢
      rw [g _ (by simp)]
      cases hv : Dict.get? d "types" with
      | none => rw [hv] at h; cases h
      | some v =>
        rw [hv] at h
        simp only at h ⊢
        obtain ⟨xs, h1, h2⟩ := ok_bind h
        obtain ⟨ys, h3, h4⟩ := ok_bind h2
        cases h4
        simp only [bind, Except.bind, h1, h3, pure, Except.pure]
        rw [set_append hv]
  · rw [cleanNested_other _ _ hn] at h ⊢
    cases h; rfl

/-! ## Shortening -/

theorem paramDefaults_base {n k : String} (h : k ∈ ["alias", "logical", "doc"]) :
    Dict.get? (paramDefaults n) k = some .none := by
  simp only [List.mem_cons, List.not_mem_nil, or_false] at h
  unfold paramDefaults
  rcases h with rfl | rfl | rfl <;> (repeat' split) <;> simp [Dict.get?_cons]

theorem paramDefaults_free {n k : String}
    (h : k ∉ ["alias", "logical", "doc", "signed", "bytes", "variable", "length", "fields"]) :
    Dict.get? (paramDefaults n) k = .none := by
  rw [Dict.get?_eq_none_iff]
  intro hm
  apply h
  unfold paramDefaults at hm
  revert hm
  simp only [Dict.keys]
  (repeat' split) <;> simp <;> rintro hm <;> grind

theorem paramDefaults_other {n : String} (h : n ∉ ["int", "string", "bytes", "list", "struct"]) :
    paramDefaults n = [("logical", .none), ("alias", .none), ("doc", .none)] := by
  simp only [List.mem_cons, List.not_mem_nil, or_false, not_or] at h
  simp [paramDefaults, h]

theorem drop_node (n m : String) (kw : Dict) :
    dropDefaults (paramDefaults n) (node m kw) = node m (dropDefaults (paramDefaults n) kw) :=
  dropDefaults_cons _ _ _ (paramDefaults_free (by simp))

/-- A document that the cleaning of nested types turns into another one for the same type. -/
def Cleans (v : PyVal) (t : RType) : Prop :=
  ∃ n kw kw', cleanNormalise v = .ok (node n kw) ∧
    cleanNested cleanDict n (dropDefaults (paramDefaults n) (node n kw)) = .ok (node n kw') ∧
    (∀ k ∈ kw'.keys, k ∈ kw.keys) ∧ Doc (.dict (node n kw')) t

theorem cleanNormalise_node (n : String) (kw : Dict) : cleanNormalise (.dict (node n kw)) = .ok (node n kw) := by
  have : Dict.has (node n kw) "type" = true := rfl
  simp only [cleanNormalise, this, if_true]

theorem cleanDict_of_cleans {v : PyVal} {n : String} {kw kw' : Dict} (h1 : cleanNormalise v = .ok (node n kw))
    (h2 : cleanNested cleanDict n (dropDefaults (paramDefaults n) (node n kw)) = .ok (node n kw')) :
    cleanDict v = (sugarOptional (node n kw') >>= shorten) := by
  rw [cleanDict_eq]
  unfold cleanStep
  have : Dict.getD (node n kw) "type" .none = .str n := rfl
  simp only [h1, bind, Except.bind, this, h2]

/-- Shortening keeps the meaning of a document. -/
theorem shorten_doc {n : String} {kw : Dict} {t : RType} (h : Doc (.dict (node n kw)) t)
    (hu : n = "union" → ∃ xs, Dict.get? kw "types" = some (.list xs)) :
    ∃ v', shorten (node n kw) = .ok v' ∧ Doc v' t := by
  unfold shorten
  have g : Dict.get? (node n kw) "type" = some (.str n) := rfl
  rw [g]
  cases kw with
  | nil => exact ⟨.str n, rfl, .short h⟩
  | cons kv kw =>
    simp only [node, List.length_cons, beq_iff_eq, Nat.add_eq_right, Nat.add_eq_zero_iff, Nat.reduceEqDiff, and_false,
      if_false, reduceCtorEq]
    by_cases hn : n = "union"
    · subst hn
      by_cases hl : kw = []
      · subst hl
        obtain ⟨xs, hx⟩ := hu rfl
        obtain ⟨k, v⟩ := kv
        rw [Dict.get?_cons] at hx
        split at hx
        · subst_vars
          cases hx
          exact ⟨.list xs, by simp [PyVal.pyEq, Dict.get?_cons], .shortUnion h⟩
        · simp [Dict.get?] at hx
      · have : kw.length ≠ 0 := by simpa using hl
        exact ⟨_, by simp [this], h⟩
    · exact ⟨_, by simp [PyVal.pyEq, hn], h⟩

theorem sugar_other {n : String} {kw : Dict} (h : n ≠ "union") : sugarOptional (node n kw) = .ok (node n kw) := by
  unfold sugarOptional
  have : Dict.getD (node n kw) "type" .none = .str n := rfl
  rw [this]
  simp [PyVal.pyEq, h]

/-! ## The sugar for optional types -/

theorem pyEq_keys {d e : Dict} (h : Dict.pyEq d e = true) {k : String} (hk : k ∈ d.keys) : k ∈ e.keys := by
  unfold Dict.pyEq at h
  simp only [Bool.and_eq_true, pyEqDict_iff] at h
  obtain ⟨kv, h1, rfl⟩ := List.mem_map.mp hk
  obtain ⟨y, h2, -⟩ := h.2 kv h1
  exact mem_keys_of_get? h2

theorem mem_extraOf {names : List String} {kw : Dict} {k : String} (h : k ∈ kw.keys)
    (hn : k ∉ names) (hb : k ∉ ["logical", "alias", "doc"]) : k ∈ (extraOf names kw).keys := by
  obtain ⟨kv, h1, rfl⟩ := List.mem_map.mp h
  refine List.mem_map_of_mem (List.mem_filter.mpr ⟨h1, ?_⟩)
  simp only [List.mem_cons, List.not_mem_nil, or_false, not_or] at hb
  simp [hn, hb]

theorem AttrsOf.key {names : List String} {kw : Dict} {a : Attrs} (h : AttrsOf names kw a) {k : String}
    (hk : k ∈ kw.keys) (hn : k ∉ names) (hb : k ∉ ["logical", "alias", "doc"]) : k ∈ a.extra.keys :=
  pyEq_keys h.extra (mem_extraOf hk hn hb)

theorem pyEq_nil {e : Dict} (h : Dict.pyEq [] e = true) : e = [] := by
  cases e with
  | nil => rfl
  | cons x e => simp [Dict.pyEq] at h

/-- The document `"null"` denotes the plain null type only. -/
theorem doc_null {t : RType} (h : Doc (.str "null") t) : t = .null {} := by
  generalize hv : PyVal.str "null" = v at h
  cases h <;> cases hv
  rename_i h
  generalize hv : PyVal.dict (node "null" []) = v at h
  cases h <;> simp only [PyVal.dict.injEq, node, List.cons.injEq, Prod.mk.injEq, PyVal.str.injEq, true_and,
    String.reduceEq, false_and, reduceCtorEq] at hv
  · rename_i kw a hk h
    subst hv
    have h1 := h.alias
    have h2 := h.logical
    have h3 := h.doc
    have h4 := pyEq_nil h.extra
    obtain ⟨l, al, dc, ex⟩ := a
    simp only [Dict.getD, Dict.get?, Option.getD_none] at h1 h2 h3 h4
    rw [← h1, ← h2, ← h3, h4]
  · rename_i hn _ _ _
    obtain ⟨rfl, -⟩ := hv
    exact absurd (by simp [coreNames]) hn
  · rename_i hs
    obtain ⟨-, hv⟩ := hv
    have := (List.append_eq_nil_iff.mp hv.symm).2
    subst this
    cases hs.optional

theorem docAll_mem {xs : List PyVal} {ts : List RType} (h : DocAll xs ts) {x : PyVal} (hx : x ∈ xs) :
    ∃ t ∈ ts, Doc x t := by
  induction xs generalizing ts with
  | nil => cases hx
  | cons y ys ih =>
    cases h with
    | cons h1 h2 =>
      rcases List.mem_cons.mp hx with rfl | hx
      · exact ⟨_, by simp, h1⟩
      · obtain ⟨t, ht, hd⟩ := ih h2 hx
        exact ⟨t, by simp [ht], hd⟩

theorem plainNull_null : IsPlainNull (.null {}) := by unfold IsPlainNull; decide

theorem docAll_null_mem {xs : List PyVal} {ts : List RType} (h : DocAll xs ts) (hx : .str "null" ∈ xs) :
    ∃ t ∈ ts, IsPlainNull t := by
  obtain ⟨t, ht, hd⟩ := docAll_mem h hx
  exact ⟨t, ht, by rw [doc_null hd]; exact plainNull_null⟩

/-- A plain null member that comes first only. -/
theorem docAll_null {xs : List PyVal} {n : RType} {rest : List RType} (h : DocAll xs (n :: rest))
    (hr : ∀ u ∈ rest, ¬ IsPlainNull u) (hx : .str "null" ∈ xs) :
    ∃ ys, xs = .str "null" :: ys ∧ .str "null" ∉ ys ∧ DocAll ys rest ∧ n = .null {} := by
  cases h with
  | cons h1 h2 =>
    rename_i y ys
    have hy : .str "null" ∉ ys := fun hm => by
      obtain ⟨t, ht, hp⟩ := docAll_null_mem h2 hm
      exact hr t ht hp
    rcases List.mem_cons.mp hx with rfl | hx
    · exact ⟨ys, rfl, hy, h2, doc_null h1⟩
    · exact absurd hx hy

theorem containsNull (xs : List PyVal) : PyVal.containsStr (.list xs) "null" = .ok (decide (.str "null" ∈ xs)) := by
  simp only [PyVal.containsStr, Except.ok.injEq]
  induction xs with
  | nil => rfl
  | cons x xs ih =>
    rw [List.any_cons, ih]
    cases x <;> simp [PyVal.pyEq, BEq.beq]

theorem removeNull_head (ys : List PyVal) : removeNull (.str "null" :: ys) = ys := by simp [removeNull, PyVal.pyEq]

/-- All dictionaries that are documents have a type name. -/
theorem Doc.isNode {d : Dict} {t : RType} (h : Doc (.dict d) t) : ∃ n kw, d = node n kw := by
  generalize hv : PyVal.dict d = v at h
  cases h <;> cases hv <;> exact ⟨_, _, rfl⟩

/-- The field attributes of a document for a type that is not a union are extra attributes of the type. -/
theorem Doc.field {n : String} {kw : Dict} {t : RType} (h : Doc (.dict (node n kw)) t) (hu : t.typeName ≠ "union") :
    n ≠ "union" ∧ "type" ∉ kw.keys ∧ "optional" ∉ kw.keys ∧
      ∀ k ∈ ["name", "default"], k ∈ kw.keys → k ∈ t.attrs.extra.keys := by
  generalize hv : PyVal.dict (node n kw) = v at h
  have aux : ∀ {names : List String} {a : Attrs} {kw : Dict}, KwOK kw → AttrsOf names kw a →
      (∀ k ∈ ["name", "default"], k ∉ names) → "type" ∉ kw.keys ∧ "optional" ∉ kw.keys ∧
      ∀ k ∈ ["name", "default"], k ∈ kw.keys → k ∈ a.extra.keys := fun hk h hn =>
    ⟨hk.special _ (by simp), hk.special _ (by simp), fun k hk' hm => h.key hm (hn k hk')
      (by simp at hk' ⊢; rcases hk' with rfl | rfl <;> simp)⟩
  cases h <;> cases hv
  case null a hk h => exact ⟨by decide, aux hk h (by simp)⟩
  case bool a hk h => exact ⟨by decide, aux hk h (by simp)⟩
  case int a hk h _ _ => exact ⟨by decide, aux hk h (by simp)⟩
  case float a hk h _ => exact ⟨by decide, aux hk h (by simp)⟩
  case string a hk h _ _ _ => exact ⟨by decide, aux hk h (by simp)⟩
  case bytes a hk h _ _ _ => exact ⟨by decide, aux hk h (by simp)⟩
  case list => exact ⟨by decide, aux ‹KwOK kw› ‹AttrsOf _ kw _› (by simp)⟩
  case map => exact ⟨by decide, aux ‹KwOK kw› ‹AttrsOf _ kw _› (by simp)⟩
  case struct => exact ⟨by decide, aux ‹KwOK kw› ‹AttrsOf _ kw _› (by simp)⟩
  case enum a hk h _ => exact ⟨by decide, aux hk h (by simp)⟩
  case union => exact absurd rfl hu
  case proxy =>
    exact ⟨by rintro rfl; exact absurd (by simp [coreNames]) ‹"union" ∉ coreNames›,
      aux (a := { RType.attrs _ with alias := .none }) ‹KwOK kw› ‹AttrsOf _ kw _› (by simp)⟩
  case optional => exact absurd rfl hu
  case optionalUnion => exact absurd rfl hu

theorem doc_list_union {xs : List PyVal} {t : RType} (h : Doc (.list xs) t) : t.typeName = "union" := by
  generalize hv : PyVal.list xs = v at h
  cases h <;> cases hv
  rename_i h
  generalize hv : PyVal.dict (node "union" [("types", .list xs)]) = v at h
  cases h <;> simp only [PyVal.dict.injEq, node, List.cons.injEq, Prod.mk.injEq, PyVal.str.injEq, true_and,
    String.reduceEq, false_and, reduceCtorEq] at hv
  · rfl
  · rename_i hn _ _ _
    obtain ⟨rfl, -⟩ := hv
    exact absurd (by simp [coreNames]) hn
  · rfl
  · rfl

theorem getD_notNone {d : Dict} (hn : d.keys.Nodup) (k : String) :
    Dict.getD (d.filter (fun kv => !kv.2.isNone)) k .none = Dict.getD d k .none := by
  unfold Dict.getD
  induction d with
  | nil => rfl
  | cons kv d ih =>
    obtain ⟨k', v⟩ := kv
    simp only [Dict.keys_cons, List.nodup_cons] at hn
    rw [List.filter_cons]
    by_cases hk : k' = k
    · subst hk
      rw [Dict.get?_cons, if_pos rfl]
      cases hv : v.isNone with
      | true =>
        simp only [Bool.not_true, Bool.false_eq_true, if_false]
        rw [Dict.get?_eq_none_iff.mpr]
        · cases v <;> simp [PyVal.isNone] at hv ⊢
        · intro hm
          obtain ⟨kv, h1, h2⟩ := List.mem_map.mp hm
          exact hn.1 (h2 ▸ List.mem_map_of_mem (List.mem_filter.mp h1).1)
      | false => simp [Dict.get?_cons]
    · rw [Dict.get?_cons_ne _ _ hk, ← ih hn.2]
      cases v.isNone with
      | true => rfl
      | false => simp only [Bool.not_false, if_true]; rw [Dict.get?_cons_ne _ _ hk]

section
variable (al df dc lg nm : PyVal)

theorem sugarAttributes_nodup : (sugarAttributes al df dc lg nm).keys.Nodup :=
  List.Nodup.sublist (List.filter_sublist.map _) (by simp)

theorem sugarAttributes_keys {k : String} (h : k ∈ (sugarAttributes al df dc lg nm).keys) :
    k ∈ ["alias", "default", "doc", "logical", "name", "optional"] := by
  obtain ⟨kv, h1, rfl⟩ := List.mem_map.mp h
  have := (List.mem_filter.mp h1).1
  simp at this
  rcases this with rfl | rfl | rfl | rfl | rfl | rfl <;> simp

theorem sugarAttributes_getD (k : String) : Dict.getD (sugarAttributes al df dc lg nm) k .none =
    Dict.getD [("alias", al), ("default", df), ("doc", dc), ("logical", lg), ("name", nm), ("optional", .bool true)]
      k .none := getD_notNone (by simp [Dict.keys]) k

theorem sugarAttributes_optional :
    Dict.get? (sugarAttributes al df dc lg nm) "optional" = some (.bool true) := by
  apply Dict.get?_of_mem_nodup (sugarAttributes_nodup ..)
  simp [sugarAttributes, PyVal.isNone]

theorem sugarAttributes_restored {kw : Dict} :
    restored (sugarAttributes al (Dict.getD kw "default" .none) dc lg (Dict.getD kw "name" .none)) = restored kw := by
  unfold restored
  rw [sugarAttributes_getD, sugarAttributes_getD]
  rfl
end

theorem sugarAttributes_plain {df nm : PyVal} {k : String} (h : k ∈ (sugarAttributes .none df .none .none nm).keys) :
    k ∈ ["default", "name", "optional"] := by
  obtain ⟨kv, h1, rfl⟩ := List.mem_map.mp h
  simp [sugarAttributes, PyVal.isNone] at h1
  obtain ⟨h1, h2⟩ := h1
  rcases h1 with rfl | rfl | rfl | rfl | rfl | rfl <;> simp at h2 ⊢

theorem only_types {d : Dict} {v : PyVal} (hn : d.keys.Nodup) (hk : ∀ k ∈ d.keys, k = "types")
    (h : Dict.get? d "types" = some v) : d = [("types", v)] := by
  match d, hn, hk, h with
  | [], _, _, h => simp [Dict.get?] at h
  | [(k, x)], _, hk, h =>
    have := hk k (by simp)
    subst this
    simp [Dict.get?_cons] at h
    rw [h]
  | (k, x) :: (k', x') :: d, hn, hk, _ =>
    have h1 := hk k (by simp)
    have h2 := hk k' (by simp)
    subst h1 h2
    simp at hn

theorem popStandard_union {kw : Dict} {v : PyVal} (hn : kw.keys.Nodup)
    (hk : ∀ k ∈ kw.keys, k ∈ ["types", "alias", "logical", "doc", "default", "name"])
    (h : Dict.get? kw "types" = some v) : popStandard (node "union" kw) = node "union" [("types", v)] := by
  have e : popStandard (node "union" kw) = node "union" (popStandard kw) := by
    unfold popStandard node
    simp only [Dict.erase_cons, String.reduceEq, if_false]
  rw [e]
  congr 1
  apply only_types
  · unfold popStandard
    simp only [Dict.keys_erase]
    exact ((((hn.filter _).filter _).filter _).filter _).filter _
  · intro k hm
    unfold popStandard at hm
    simp only [Dict.mem_keys_erase] at hm
    have := hk k hm.1.1.1.1.1
    simp at this
    grind
  · unfold popStandard
    rw [Dict.get?_erase_ne _ (by decide), Dict.get?_erase_ne _ (by decide), Dict.get?_erase_ne _ (by decide),
      Dict.get?_erase_ne _ (by decide), Dict.get?_erase_ne _ (by decide), h]

theorem nodup_extraOf {names : List String} {kw : Dict} (h : kw.keys.Nodup) : (extraOf names kw).keys.Nodup :=
  h.sublist (List.filter_sublist.map _)

theorem get?_extraOf {names : List String} {kw : Dict} {k : String} (hn : k ∉ names ++ ["logical", "alias", "doc"]) :
    Dict.get? (extraOf names kw) k = Dict.get? kw k := by
  unfold extraOf
  rw [Dict.get?_filter_keys kw (fun k => !(names ++ ["logical", "alias", "doc"]).contains k)]
  simp only [List.contains_eq_mem, hn, decide_false, Bool.not_false, if_true]

/-- The default and the name are all there is. -/
theorem restored_extra {kw : Dict} {a : Attrs} (hk : KwOK kw) (h : AttrsOf ["types"] kw a)
    (hn : a.extra.keys.Nodup) (hd : "default" ∈ kw.keys) (hkeys : ∀ k ∈ a.extra.keys, k = "default" ∨ k = "name")
    (hname : Dict.get? a.extra "name" ≠ some .none) : Dict.pyEq (restored kw) a.extra = true := by
  have hx := (dictEq_iff (nodup_extraOf hk.nodup) hn).mp h.extra
  have hnd : (restored kw).keys.Nodup := by
    rw [restored_eq]; split <;> simp [Dict.keys]
  rw [dictEq_iff hnd hn]
  intro k
  have e : Dict.get? (restored kw) k = Dict.get? (extraOf ["types"] kw) k := by
    by_cases h1 : k = "default"
    · subst h1
      rw [get?_extraOf (by simp), restored_eq, Dict.get?_append]
      have h2 : Dict.get? (if (Dict.getD kw "name" .none).isNone = true then []
          else [("name", Dict.getD kw "name" .none)]) "default" = .none := by
        split <;> simp [Dict.get?, Dict.get?_cons]
      rw [h2]
      simp only [Dict.get?_cons, if_true]
      cases h3 : Dict.get? kw "default" with
      | none => exact absurd hd (Dict.get?_eq_none_iff.mp h3)
      | some v => simp [Dict.getD, h3]
    · by_cases h2 : k = "name"
      · subst h2
        have hx' := hx "name"
        rw [get?_extraOf (by simp)] at hx' ⊢
        rw [restored_eq, Dict.get?_append]
        cases h3 : Dict.get? kw "name" with
        | none =>
          have : Dict.getD kw "name" .none = .none := by simp [Dict.getD, h3]
          rw [this]
          simp [PyVal.isNone, Dict.get?, Dict.get?_cons]
        | some v =>
          have : Dict.getD kw "name" .none = v := by simp [Dict.getD, h3]
          rw [this]
          cases hv : v.isNone with
          | true =>
            have : v = .none := by cases v <;> simp [PyVal.isNone] at hv ⊢
            subst this
            rw [h3] at hx'
            cases h4 : Dict.get? a.extra "name" with
            | none => rw [h4] at hx'; exact hx'.elim
            | some y =>
              rw [h4] at hx'
              have := pyEq_none_left hx'
              subst this
              exact absurd h4 hname
          | false => simp [Dict.get?_cons]
      · rw [Dict.get?_eq_none_iff.mpr (restored_base (by simp [h1, h2]))]
        symm
        rw [Dict.get?_eq_none_iff]
        intro hm
        rcases hkeys k (pyEq_keys h.extra hm) with h | h
        · exact h1 h
        · exact h2 h
  rw [e]
  exact hx k

theorem isNone_iff {v : PyVal} : v.isNone = true ↔ v = .none := by cases v <;> simp [PyVal.isNone]

/-- A union is given its compact form. -/
theorem sugar_union {kw : Dict} {xs : List PyVal} {ts : List RType} {a : Attrs} (hk : KwOK kw)
    (h : AttrsOf ["types"] kw a) (hx : Dict.get? kw "types" = some (.list xs)) (hd : DocAll xs ts)
    (hc : OptionalForm ts a) (hn : a.extra.keys.Nodup) :
    ∃ m kw', sugarOptional (node "union" kw) = .ok (node m kw') ∧ Doc (.dict (node m kw')) (.union ts a) ∧
      (m = "union" → ∃ ys, Dict.get? kw' "types" = some (.list ys)) := by
  have same : Doc (.dict (node "union" kw)) (.union ts a) := .union hk h hx hd
  have g : ∀ k, k ≠ "type" → Dict.get? (node "union" kw) k = Dict.get? kw k :=
    fun k hk => Dict.get?_cons_ne _ _ (fun e => hk e.symm)
  have gD : ∀ k, k ≠ "type" → Dict.getD (node "union" kw) k .none = Dict.getD kw k .none :=
    fun k hk => by unfold Dict.getD; rw [g k hk]
  have t1 : Dict.getD (node "union" kw) "type" .none = .str "union" := rfl
  unfold sugarOptional
  rw [t1]
  simp only [PyVal.pyEq, beq_self_eq_true, Bool.not_true, Bool.false_eq_true, if_false]
  rw [g _ (by decide), hx]
  simp only [containsNull]
  by_cases hnull : .str "null" ∈ xs
  · simp only [hnull, decide_true]
    by_cases hdef : "default" ∈ kw.keys
    · have hh : Dict.has (node "union" kw) "default" = true := by
        rw [Dict.has_iff]; simp [hdef]
      simp only [hh, Bool.not_true, Bool.false_eq_true, if_false]
      obtain ⟨c1, c2, n, rest, rfl, c3, c4, c5⟩ := hc (docAll_null_mem hd hnull)
        (h.key hdef (by simp) (by simp))
      obtain ⟨ys, rfl, hy, hdy, rfl⟩ := docAll_null hd c4 hnull
      have hkeys : ∀ k ∈ kw.keys, k ∈ ["types", "alias", "logical", "doc", "default", "name"] := by
        intro k hm
        by_cases h1 : k ∈ ["types"]
        · simp at h1; simp [h1]
        · by_cases h2 : k ∈ ["logical", "alias", "doc"]
          · simp at h2; rcases h2 with rfl | rfl | rfl <;> simp
          · rcases c1 k (h.key hm h1 h2) with rfl | rfl <;> simp
      have hres := restored_extra hk h hn hdef c1 c2
      rw [popStandard_union hk.nodup hkeys hx]
      simp only [node, List.length_cons, List.length_nil, beq_self_eq_true, if_true]
      rw [gD _ (by decide), gD _ (by decide), gD _ (by decide), gD _ (by decide), gD _ (by decide)]
      rw [h.alias, h.logical, h.doc]
      unfold sugarUnion
      rw [removeNull_head]
      -- the union stays
      have stays : ∃ m kw', (.ok (Dict.update (Dict.set (node "union" [("types", .list (.str "null" :: ys))])
            "types" (.list ys)) (sugarAttributes a.alias (Dict.getD kw "default" .none) a.doc a.logical
              (Dict.getD kw "name" .none))) : Except PyErr Dict) = .ok (node m kw') ∧
          Doc (.dict (node m kw')) (.union (.null {} :: rest) a) ∧
          (m = "union" → ∃ ys, Dict.get? kw' "types" = some (.list ys)) := by
        have hset : Dict.set (node "union" [("types", .list (.str "null" :: ys))]) "types" (.list ys) =
            node "union" [("types", .list ys)] := by simp [node, Dict.set]
        rw [hset, Dict.update_of_disjoint]
        · refine ⟨"union", ("types", .list ys) :: sugarAttributes a.alias (Dict.getD kw "default" .none) a.doc
            a.logical (Dict.getD kw "name" .none), rfl, ?_, fun _ => ⟨ys, rfl⟩⟩
          have gs : ∀ k, k ≠ "types" → Dict.getD (("types", PyVal.list ys) :: sugarAttributes a.alias
              (Dict.getD kw "default" .none) a.doc a.logical (Dict.getD kw "name" .none)) k .none =
              Dict.getD (sugarAttributes a.alias (Dict.getD kw "default" .none) a.doc a.logical
                (Dict.getD kw "name" .none)) k .none := fun k hk => by
            unfold Dict.getD; rw [Dict.get?_cons_ne _ _ (fun e => hk e.symm)]
          refine .optionalUnion ⟨?_, ?_, ?_, ?_, ?_, ?_, ?_⟩ rfl hy hdy
          · rw [Dict.keys_cons, List.nodup_cons]
            refine ⟨fun hm => ?_, sugarAttributes_nodup ..⟩
            have := sugarAttributes_keys _ _ _ _ _ hm
            simp at this
          · intro k hm
            rw [Dict.keys_cons, List.mem_cons] at hm
            rcases hm with rfl | hm
            · simp
            · have := sugarAttributes_keys _ _ _ _ _ hm
              simp at this
              rcases this with rfl | rfl | rfl | rfl | rfl | rfl <;> simp
          · rw [Dict.get?_cons_ne _ _ (by decide), sugarAttributes_optional]
          · rw [gs _ (by decide), sugarAttributes_getD]; rfl
          · rw [gs _ (by decide), sugarAttributes_getD]; rfl
          · rw [gs _ (by decide), sugarAttributes_getD]; rfl
          · unfold restored
            rw [gs _ (by decide), gs _ (by decide)]
            have := sugarAttributes_restored a.alias a.doc a.logical (kw := kw)
            unfold restored at this
            rw [this]
            exact hres
        · intro k hm
          have := sugarAttributes_keys _ _ _ _ _ hm
          simp at this
          rcases this with rfl | rfl | rfl | rfl | rfl | rfl <;> simp [node, Dict.keys]
        · exact sugarAttributes_nodup ..
      -- the union is replaced by its member
      have member : ∀ (n : String) (kw0 : Dict) (u : RType), Doc (.dict (node n kw0)) u → rest = [u] →
          a.alias = .none → a.logical = .none →
          ∃ m kw', (.ok (Dict.update (node n kw0) (sugarAttributes a.alias (Dict.getD kw "default" .none) a.doc a.logical
              (Dict.getD kw "name" .none))) : Except PyErr Dict) = .ok (node m kw') ∧
          Doc (.dict (node m kw')) (.union (.null {} :: rest) a) ∧
          (m = "union" → ∃ ys, Dict.get? kw' "types" = some (.list ys)) := by
        intro n kw0 u hdu hr h1 h2
        obtain ⟨d1, d2, d3, d4⟩ := c5 h1 h2 u hr
        obtain ⟨f1, f2, f3, f4⟩ := hdu.field d2
        subst hr
        have ha : a = { extra := a.extra } := by
          obtain ⟨l, al, dc, ex⟩ := a
          simp only at h1 h2 d1
          rw [h1, h2, d1]
        have f5 : ∀ k ∈ ["default", "name", "optional"], k ∉ kw0.keys := by
          intro k hm hm2
          simp only [List.mem_cons, List.not_mem_nil, or_false] at hm
          rcases hm with rfl | rfl | rfl
          · exact d4 (f4 _ (by simp) hm2)
          · exact d3 (f4 _ (by simp) hm2)
          · exact f3 hm2
        rw [h1, h2, d1]
        have f6 := @sugarAttributes_plain (Dict.getD kw "default" .none) (Dict.getD kw "name" .none)
        refine ⟨n, kw0 ++ sugarAttributes .none (Dict.getD kw "default" .none) .none .none
          (Dict.getD kw "name" .none), ?_, ?_, fun e => absurd e f1⟩
        · rw [Dict.update_of_disjoint]
          · rfl
          · intro k hm
            have hm' := f6 hm
            rw [Dict.keys_cons, List.mem_cons, not_or]
            exact ⟨by rintro rfl; simp at hm', f5 k hm'⟩
          · exact sugarAttributes_nodup ..
        · rw [ha]
          refine .optional hdu f1 f2 f5 ⟨sugarAttributes_nodup .., fun k hm => f6 hm, sugarAttributes_optional .., ?_⟩
          rw [sugarAttributes_restored]
          exact hres
      cases hb : (a.alias.isNone && a.logical.isNone) with
      | false =>
        split
        all_goals first | (exfalso; simp_all; done) | exact stays
      | true =>
        simp only [Bool.and_eq_true, isNone_iff] at hb
        split
        · cases hdy with
          | cons hu hnil =>
            cases hnil
            generalize hv : PyVal.str _ = v at hu
            cases hu <;> cases hv
            rename_i hu
            exact member _ _ _ hu rfl hb.1 hb.2
        · cases hdy with
          | cons hu hnil =>
            cases hnil
            obtain ⟨n, kw0, rfl⟩ := hu.isNode
            exact member _ _ _ hu rfl hb.1 hb.2
        · rename_i x h1 h2 _
          exfalso
          cases hdy with
          | cons hu hnil =>
            cases hnil
            cases x with
            | str s => exact h1 _ rfl
            | dict d => exact h2 _ rfl
            | list ys => exact (c5 hb.1 hb.2 _ rfl).2.1 (doc_list_union hu)
            | _ => cases hu
        · exact stays
    · have hh : Dict.has (node "union" kw) "default" = false := by
        rw [Dict.has_eq_false_iff]; simp [hdef]
      simp only [hh, Bool.not_false, if_true]
      exact ⟨_, _, rfl, same, fun _ => ⟨_, hx⟩⟩
  · simp only [hnull, decide_false]
    exact ⟨_, _, rfl, same, fun _ => ⟨_, hx⟩⟩

/-! ## Cleaning -/

/-- Dictionaries of extra attributes have distinct keys, and all unions have a compact form. -/
def Tidy (t : RType) : Prop := Canonical t ∧ ∀ u, Sub u t → u.attrs.extra.keys.Nodup

theorem Tidy.sub {t u : RType} (h : Tidy t) (hs : Sub u t) : Tidy u :=
  ⟨fun ts a hw => h.1 ts a (hw.trans hs), fun w hw => h.2 w (hw.trans hs)⟩

/-- After the nested types, the document itself is given its compact form. -/
theorem Cleans.clean {v : PyVal} {t : RType} (h : Cleans v t) (ht : Tidy t) :
    ∃ v', cleanDict v = .ok v' ∧ Doc v' t := by
  obtain ⟨n, kw, kw', h1, h2, -, hd⟩ := h
  rw [cleanDict_of_cleans h1 h2]
  by_cases hn : n = "union"
  · subst hn
    have hd0 := hd
    generalize hv : PyVal.dict (node "union" kw') = w at hd
    cases hd <;> simp only [PyVal.dict.injEq, node, List.cons.injEq, Prod.mk.injEq, PyVal.str.injEq, true_and,
      String.reduceEq, false_and, reduceCtorEq] at hv
    · subst hv
      rename_i hds hk ha hx
      obtain ⟨m, kw2, s1, s2, s3⟩ := sugar_union hk ha hx hds (ht.1 _ _ .refl) (ht.2 _ .refl)
      rw [s1]
      exact shorten_doc s2 s3
    · obtain ⟨rfl, -⟩ := hv
      exact absurd (by simp [coreNames]) ‹"union" ∉ coreNames›
    · obtain ⟨rfl, -⟩ := hv
      exact absurd rfl ‹"union" ≠ "union"›
    · subst hv
      rename_i hnull hds hs hx
      have : sugarOptional (node "union" kw') = .ok (node "union" kw') := by
        have t1 : Dict.getD (node "union" kw') "type" .none = .str "union" := rfl
        unfold sugarOptional
        rw [t1]
        simp only [PyVal.pyEq, beq_self_eq_true, Bool.not_true, Bool.false_eq_true, if_false]
        rw [Dict.get?_cons_ne _ _ (by decide), hx]
        simp only [containsNull, hnull, decide_false]
      rw [this]
      exact shorten_doc hd0 (fun _ => ⟨_, hx⟩)
  · rw [sugar_other hn]
    exact shorten_doc hd (fun e => absurd e hn)

theorem cleans_leaf {n : String} {kw : Dict} {t : RType} (hn : n ∉ ["list", "map", "struct", "union"])
    (h : Doc (.dict (node n (dropDefaults (paramDefaults n) kw))) t) : Cleans (.dict (node n kw)) t :=
  ⟨n, kw, _, cleanNormalise_node n kw, by rw [drop_node]; exact cleanNested_other _ _ hn,
    fun _ hk => dropDefaults_keys hk, h⟩

theorem paramDefaults_sub (n : String) (names : List String)
    (h : ∀ k ∈ (paramDefaults n).keys, k ∈ names ++ ["logical", "alias", "doc"]) {kw : Dict} {a : Attrs}
    (hk : KwOK kw) (ha : AttrsOf names kw a) : AttrsOf names (dropDefaults (paramDefaults n) kw) a :=
  ha.drop hk.nodup (fun _ hb => paramDefaults_base hb) h

/-- Cleaning keeps flags and nested documents. -/
theorem drop_get {n k : String} {kw : Dict} {v : PyVal} (hk : KwOK kw)
    (hf : k ∉ ["alias", "logical", "doc", "signed", "bytes", "variable", "length", "fields"])
    (h : Dict.get? kw k = some v) : Dict.get? (dropDefaults (paramDefaults n) kw) k = some v := by
  rw [drop_keep hk.nodup (paramDefaults_free hf)]; exact h

mutual
theorem Doc.cleans : ∀ {v : PyVal} {t : RType}, Doc v t → Tidy t → Cleans v t
  | _, _, .short h => fun ht => by
    obtain ⟨n, kw, kw', h1, h2⟩ := Doc.cleans h ht
    rw [cleanNormalise_node] at h1
    exact ⟨n, kw, kw', h1, h2⟩
  | _, _, .shortUnion h => fun ht => by
    obtain ⟨n, kw, kw', h1, h2⟩ := Doc.cleans h ht
    rw [cleanNormalise_node] at h1
    exact ⟨n, kw, kw', h1, h2⟩
  | _, _, .null hk h => fun _ => cleans_leaf (by simp) (.null (hk.drop _)
      (paramDefaults_sub "null" [] (by decide) hk h))
  | _, _, .bool hk h => fun _ => cleans_leaf (by simp) (.bool (hk.drop _)
      (paramDefaults_sub "bool" [] (by decide) hk h))
  | _, _, .int hk h hb hs => fun _ => cleans_leaf (by simp) (.int (hk.drop _)
      (paramDefaults_sub "int" _ (by decide) hk h) (drop_get hk (by simp) hb) (drop_flag hk.nodup rfl hs))
  | _, _, .float hk h hb => fun _ => cleans_leaf (by simp) (.float (hk.drop _)
      (paramDefaults_sub "float" _ (by decide) hk h) (drop_get hk (by simp) hb))
  | _, _, .string hk h h_ hb hs => fun _ => cleans_leaf (by simp) (.string (hk.drop _)
      (paramDefaults_sub "string" _ (by decide) hk h) (fun hm => h_ (dropDefaults_keys hm))
      (by rw [drop_none hk.nodup rfl]; exact hb) (drop_flag hk.nodup rfl hs))
  | _, _, .bytes hk h h_ hb hs => fun _ => cleans_leaf (by simp) (.bytes (hk.drop _)
      (paramDefaults_sub "bytes" _ (by decide) hk h) (fun hm => h_ (dropDefaults_keys hm))
      (by rw [drop_none hk.nodup rfl]; exact hb) (drop_flag hk.nodup rfl hs))
  | _, _, .enum hk h hs => fun _ => cleans_leaf (by simp) (.enum (hk.drop _)
      (paramDefaults_sub "enum" _ (by decide) hk h) (drop_get hk (by simp) hs))
  | _, _, .proxy (n := n) hk h hn hal hr ha => fun _ => by
    have e : paramDefaults n = [("logical", .none), ("alias", .none), ("doc", .none)] :=
      paramDefaults_other (fun hm => hn (by
        simp only [List.mem_cons, List.not_mem_nil, or_false] at hm
        rcases hm with rfl | rfl | rfl | rfl | rfl <;> simp [coreNames]))
    exact cleans_leaf (fun hm => hn (by
        simp only [List.mem_cons, List.not_mem_nil, or_false] at hm
        rcases hm with rfl | rfl | rfl | rfl <;> simp [coreNames])) (.proxy (hk.drop _)
      (paramDefaults_sub n [] (by rw [e]; decide) hk h) hn (fun hm => hal (dropDefaults_keys hm))
      (fun hm => hr (dropDefaults_keys hm)) ha)
  | _, _, .list (kw := kw) hk h hv hd hl hw => fun ht => by
    obtain ⟨v', g1, g2⟩ := (Doc.cleans hd (ht.sub (.list .refl))).clean (ht.sub (.list .refl))
    have hv' := drop_get (n := "list") hk (by simp) hv
    refine ⟨"list", kw, (dropDefaults (paramDefaults "list") kw).set "values" v', cleanNormalise_node _ _, ?_, ?_,
      .list ((hk.drop _).set _ (by simp))
        ((paramDefaults_sub "list" _ (by decide) hk h).set _ (by simp) (by simp)) (Dict.get?_set_self _ _ _) g2
        (by rw [getD_set_ne (by decide), drop_none hk.nodup rfl]; exact hl) ?_⟩
    · rw [drop_node, cleanNested_list, Dict.get?_cons_ne _ _ (by decide), hv']
      simp only [g1, bind, Except.bind, pure, Except.pure]
      rw [node_set _ _ _ (by decide)]
    · intro k hm
      rw [set_keys hv'] at hm
      exact dropDefaults_keys hm
    · unfold Flag
      rw [getD_set_ne (by decide)]
      exact drop_flag hk.nodup rfl hw
  | _, _, .map (kw := kw) (k := k) hk h hkey hval hdk hdv => fun ht => by
    obtain ⟨k', g1, g2⟩ := (Doc.cleans hdk (ht.sub (.key .refl))).clean (ht.sub (.key .refl))
    obtain ⟨v', g3, g4⟩ := (Doc.cleans hdv (ht.sub (.value .refl))).clean (ht.sub (.value .refl))
    have hv' := drop_get (n := "map") hk (by simp) hval
    have hk' := drop_get (n := "map") hk (by simp) hkey
    have hk2 : Dict.get? ((dropDefaults (paramDefaults "map") kw).set "values" v') "keys" = some k := by
      rw [Dict.get?_set_ne _ _ (by decide)]; exact hk'
    refine ⟨"map", kw, ((dropDefaults (paramDefaults "map") kw).set "values" v').set "keys" k',
      cleanNormalise_node _ _, ?_, ?_,
      .map (((hk.drop _).set _ (by simp)).set _ (by simp))
        (((paramDefaults_sub "map" _ (by decide) hk h).set _ (by simp) (by simp)).set _ (by simp) (by simp))
        (Dict.get?_set_self _ _ _) (by rw [Dict.get?_set_ne _ _ (by decide)]; exact Dict.get?_set_self _ _ _) g2 g4⟩
    · rw [drop_node, cleanNested_map, Dict.get?_cons_ne _ _ (by decide), Dict.get?_cons_ne _ _ (by decide), hv', hk']
      simp only [g1, g3, bind, Except.bind, pure, Except.pure]
      rw [node_set _ _ _ (by decide), node_set _ _ _ (by decide)]
    · intro k hm
      rw [set_keys hk2, set_keys hv'] at hm
      exact dropDefaults_keys hm
  | _, _, .struct (kw := kw) (xs := xs) hk h hx hd => fun ht => by
    obtain ⟨ys, g1, g2⟩ := DocAll.cleans hd (fun t hm => ht.sub (.field hm .refl))
    have hx' : Dict.get? (dropDefaults (paramDefaults "struct") kw) "fields" = some (.list xs) := by
      rw [get?_drop hk.nodup, hx]
      simp only [paramDefaults, String.reduceEq, if_false, if_true, Dict.get?_cons, PyVal.pyEq, or_self,
        Bool.false_eq_true]
    refine ⟨"struct", kw, (dropDefaults (paramDefaults "struct") kw).set "fields" (.list ys),
      cleanNormalise_node _ _, ?_, ?_,
      .struct ((hk.drop _).set _ (by simp))
        ((paramDefaults_sub "struct" _ (by decide) hk h).set _ (by simp) (by simp)) (Dict.get?_set_self _ _ _) g2⟩
    · rw [drop_node, cleanNested_struct, Dict.get?_cons_ne _ _ (by decide), hx']
      simp only [PyVal.iter, g1, bind, Except.bind, pure, Except.pure]
      rw [node_set _ _ _ (by decide)]
    · intro k hm
      rw [set_keys hx'] at hm
      exact dropDefaults_keys hm
  | _, _, .union (kw := kw) hk h hx hd => fun ht => by
    obtain ⟨ys, g1, g2⟩ := DocAll.cleans hd (fun t hm => ht.sub (.member hm .refl))
    have hx' := drop_get (n := "union") hk (by simp) hx
    refine ⟨"union", kw, (dropDefaults (paramDefaults "union") kw).set "types" (.list ys),
      cleanNormalise_node _ _, ?_, ?_,
      .union ((hk.drop _).set _ (by simp))
        ((paramDefaults_sub "union" _ (by decide) hk h).set _ (by simp) (by simp)) (Dict.get?_set_self _ _ _) g2⟩
    · rw [drop_node, cleanNested_union, Dict.get?_cons_ne _ _ (by decide), hx']
      simp only [PyVal.iter, g1, bind, Except.bind, pure, Except.pure]
      rw [node_set _ _ _ (by decide)]
    · intro k hm
      rw [set_keys hx'] at hm
      exact dropDefaults_keys hm
  | _, _, .optional (n := n) (kw := kw) (es := es) (u := u) hd hu hty hk hs => fun ht => by
    obtain ⟨n', kw', kw2, h1, h2, h3, h4⟩ := Doc.cleans hd (ht.sub (.member (by simp) .refl))
    rw [cleanNormalise_node] at h1
    cases h1
    have hes : dropDefaults (paramDefaults n) es = es := by
      apply dropDefaults_free
      intro k hm
      apply paramDefaults_free
      have := hs.keys k hm
      simp only [List.mem_cons, List.not_mem_nil, or_false] at this
      rcases this with rfl | rfl | rfl <;> simp
    refine ⟨n, kw ++ es, kw2 ++ es, cleanNormalise_node _ _, ?_, ?_, .optional h4 hu (fun hm => hty (h3 _ hm))
      (fun k hm hm2 => hk k hm (h3 _ hm2)) hs⟩
    · have : dropDefaults (paramDefaults n) (node n (kw ++ es)) = dropDefaults (paramDefaults n) (node n kw) ++ es := by
        rw [drop_node, drop_node, dropDefaults_append, hes]; rfl
      rw [this]
      exact cleanNested_append (fun k hm hm2 => by
        have := hs.keys k hm2
        simp at hm this
        grind) h2
    · intro k hm
      rw [Dict.keys_append, List.mem_append] at hm ⊢
      exact hm.imp (h3 k) id
  | _, _, .optionalUnion (kw := kw) (xs := xs) (ts := ts) (a := a) hs hx hnull hd => fun ht => by
    obtain ⟨ys, g1, g2⟩ := DocAll.cleans hd (fun t hm => ht.sub (.member (List.mem_cons_of_mem _ hm) .refl))
    have kp : ∀ {k}, k ∉ ["alias", "logical", "doc", "signed", "bytes", "variable", "length", "fields"] →
        Dict.get? (dropDefaults (paramDefaults "union") kw) k = Dict.get? kw k :=
      fun hf => drop_keep hs.nodup (paramDefaults_free hf)
    have hx' : Dict.get? (dropDefaults (paramDefaults "union") kw) "types" = some (.list xs) := by
      rw [kp (by simp)]; exact hx
    have hdef : "default" ∈ a.extra.keys := by
      apply pyEq_keys hs.extra
      rw [restored_eq]
      simp [Dict.keys_append]
    obtain ⟨-, -, n, rest, hr, -, c4, -⟩ := ht.1 _ _ .refl ⟨.null {}, by simp, plainNull_null⟩ hdef
    cases hr
    refine ⟨"union", kw, (dropDefaults (paramDefaults "union") kw).set "types" (.list ys),
      cleanNormalise_node _ _, ?_, ?_,
      .optionalUnion ⟨Dict.nodup_keys_set _ _ (dropDefaults_nodup hs.nodup), ?_, ?_, ?_, ?_, ?_, ?_⟩
        (Dict.get?_set_self _ _ _) ?_ g2⟩
    · rw [drop_node, cleanNested_union, Dict.get?_cons_ne _ _ (by decide), hx']
      simp only [PyVal.iter, g1, bind, Except.bind, pure, Except.pure]
      rw [node_set _ _ _ (by decide)]
    · intro k hm
      rw [set_keys hx'] at hm
      exact dropDefaults_keys hm
    · intro k hm
      rw [set_keys hx'] at hm
      exact hs.keys k (dropDefaults_keys hm)
    · rw [Dict.get?_set_ne _ _ (by decide), kp (by simp)]; exact hs.optional
    · rw [getD_set_ne (by decide), drop_none hs.nodup rfl]; exact hs.alias
    · rw [getD_set_ne (by decide), drop_none hs.nodup rfl]; exact hs.logical
    · rw [getD_set_ne (by decide), drop_none hs.nodup rfl]; exact hs.doc
    · have e : ∀ k ∈ ["name", "default"], Dict.getD ((dropDefaults (paramDefaults "union") kw).set "types" (.list ys)) k
          .none = Dict.getD kw k .none := by
        intro k hk
        simp only [List.mem_cons, List.not_mem_nil, or_false] at hk
        rcases hk with rfl | rfl <;> (rw [getD_set_ne (by decide)]; unfold Dict.getD; rw [kp (by simp)])
      unfold restored
      rw [e _ (by simp), e _ (by simp)]
      exact hs.extra
    · intro hm
      obtain ⟨t, ht, hp⟩ := docAll_null_mem g2 hm
      exact c4 t ht hp
theorem DocAll.cleans : ∀ {xs : List PyVal} {ts : List RType}, DocAll xs ts → (∀ t ∈ ts, Tidy t) →
    ∃ ys, cleanAll cleanDict xs = .ok ys ∧ DocAll ys ts
  | _, _, .nil => fun _ => ⟨[], rfl, .nil⟩
  | _, _, .cons (t := t) hd hds => fun ht => by
    obtain ⟨y, g1, g2⟩ := (Doc.cleans hd (ht t (by simp))).clean (ht t (by simp))
    obtain ⟨ys, g3, g4⟩ := DocAll.cleans hds (fun u hu => ht u (by simp [hu]))
    exact ⟨y :: ys, by simp only [cleanAll, g1, g3, bind, Except.bind, pure, Except.pure], .cons g2 g4⟩
end

/-- Cleaning a document for a type gives a document for the same type. -/
theorem Doc.clean {v : PyVal} {t : RType} (h : Doc v t) (ht : Tidy t) : ∃ v', cleanDict v = .ok v' ∧ Doc v' t :=
  (h.cleans ht).clean ht

end Recap
