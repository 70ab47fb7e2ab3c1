import Verif.AvroLemmas

/-!
# C63: the names in written Avro schemas
-/

set_option autoImplicit false

namespace Recap.Avro

open Recap.Avro.Spec

variable {live : Registry}

/-! ## References to built-in aliases -/

/-- No other type is nested in this one, and it is no reference. -/
def isLeaf : RType → Bool
  | .null _ | .bool _ | .int .. | .float .. | .string .. | .bytes .. | .enum .. => true
  | _ => false

theorem builtin_leaf {s : String} {t : RType} (h : (s, t) ∈ builtinAliases) : isLeaf t = true := by
  have : ∀ kt ∈ builtinAliases, isLeaf kt.2 = true := by
    decide +kernel
  exact this _ h

theorem withAttrs_leaf {t : RType} {a : Attrs} (h : isLeaf t = true) : isLeaf (t.withAttrs a) = true := by
  cases t <;> simp_all [isLeaf, RType.withAttrs]

theorem attrs_set {t : RType} (a : Attrs) : (t.withAttrs a).attrs = a := by
  cases t <;> rfl

theorem applyOverride_leaf {t t' : RType} {k : String} {v : PyVal} (ht : isLeaf t = true)
    (h : applyOverride t k v = .ok t') : isLeaf t' = true ∧
      (k = "name" → Dict.get? t'.attrs.extra "name" = some v) ∧
      (k ≠ "name" → Dict.get? t'.attrs.extra "name" = Dict.get? t.attrs.extra "name") := by
  unfold applyOverride at h
  extract_lets a at h
  split at h
  · cases h
  · split at h
    · rename_i hk; cases h; subst hk
      exact ⟨withAttrs_leaf ht, by simp, by simp [attrs_set, a]⟩
    · split at h
      · rename_i hk; cases h; subst hk
        exact ⟨withAttrs_leaf ht, by simp, by simp [attrs_set, a]⟩
      · by_cases hd : k = "doc"
        · rw [if_pos hd] at h
          cases h; subst hd; exact ⟨withAttrs_leaf ht, by simp, by simp [attrs_set, a]⟩
        · rw [if_neg hd] at h
          have key : ∀ x : Dict, (k = "name" → Dict.get? (Dict.set x k v) "name" = some v) ∧
              (k ≠ "name" → Dict.get? (Dict.set x k v) "name" = Dict.get? x "name") := fun x =>
            ⟨fun e => by subst e; exact Dict.get?_set_self .., fun e => Dict.get?_set_ne _ _ e⟩
          cases t <;> simp only [isLeaf, Bool.false_eq_true] at ht <;> simp only at h <;>
            (repeat' split at h) <;> cases h <;>
            first
              | exact ⟨rfl, key _⟩
              | (rename_i hk; subst hk; exact ⟨rfl, by simp, fun _ => rfl⟩)

theorem applyOverrides_leaf {t t' : RType} {e : Dict} (ht : isLeaf t = true) (hn : (Dict.keys e).Nodup)
    (h : applyOverrides t e = .ok t') : isLeaf t' = true ∧
      (Dict.get? e "name" = .none → Dict.get? t'.attrs.extra "name" = Dict.get? t.attrs.extra "name") ∧
      ∀ v, Dict.get? e "name" = some v → Dict.get? t'.attrs.extra "name" = some v := by
  induction e generalizing t with
  | nil => cases h; exact ⟨ht, fun _ => rfl, fun v h => by cases h⟩
  | cons kv e ih =>
    obtain ⟨k, v⟩ := kv
    simp only [applyOverrides] at h
    obtain ⟨t1, h1, h⟩ := ok_bind h
    simp only [Dict.keys, List.map_cons, List.nodup_cons] at hn
    obtain ⟨h2, h3, h4⟩ := applyOverride_leaf ht h1
    obtain ⟨h5, h6, h7⟩ := ih h2 hn.2 h
    refine ⟨h5, ?_, ?_⟩
    · intro hg
      rw [Dict.get?_cons] at hg
      split at hg
      · cases hg
      · rename_i hk
        exact (h6 hg).trans (h4 hk)
    · intro w hg
      rw [Dict.get?_cons] at hg
      split at hg
      · rename_i hk
        subst hk
        cases hg
        exact (h6 (Dict.get?_eq_none_iff.mpr hn.1)).trans (h3 rfl)
      · exact h7 w hg

theorem target_leaf {t : RType} {r : Option (List (String × RType))} {a : Attrs}
    (hb : NamedBuiltin live r a) (h : resolve live r a = .ok t) :
    isLeaf t = true ∧ ∃ n, n ≠ "" ∧ Dict.get? t.attrs.extra "name" = some (.str n) := by
  obtain ⟨⟨s, u, he, hm, hr⟩, hk, n, hn, hg⟩ := hb
  unfold resolve at h
  simp only [he, Registry.fromAlias, hr] at h
  have hl := builtin_leaf hm
  have hd : u.deepcopy (r.getD live) = u := by cases u <;> simp_all [isLeaf, RType.deepcopy]
  have h' : applyOverrides (u.deepcopy (r.getD live)) a.extra = .ok t := h
  rw [hd] at h'
  obtain ⟨h1, _, h3⟩ := applyOverrides_leaf hl hk h'
  exact ⟨h1, n, hn, h3 _ hg⟩

/-! ## Leaves -/

/-- Keys that hold nested schemas or names. -/
def nestedKeys : List String := ["items", "values", "fields", "aliases", "doc", "name", "default"]

theorem leafSchema_ok {t : RType} {d : Dict} (h : leafSchema t = .ok d) :
    (∃ s, Dict.get? d "type" = some (.str s) ∧ s ∈ keywords) ∧
      (∀ k ∈ Dict.keys d, k ∉ nestedKeys) ∧ (Dict.keys d).Nodup := by
  cases t <;> simp only [leafSchema] at h
  case null => cases h; exact ⟨⟨_, rfl, by decide⟩, by simp [Dict.keys, nestedKeys], by simp [Dict.keys]⟩
  case bool => cases h; exact ⟨⟨_, rfl, by decide⟩, by simp [Dict.keys, nestedKeys], by simp [Dict.keys]⟩
  case int =>
    split at h
    · unfold intSchema at h
      split at h
      · cases h; exact ⟨⟨_, rfl, by decide⟩, by simp [Dict.keys, nestedKeys], by simp [Dict.keys]⟩
      · split at h
        · cases h; exact ⟨⟨_, rfl, by decide⟩, by simp [Dict.keys, nestedKeys], by simp [Dict.keys]⟩
        · extract_lets digits at h
          by_cases hd : digitLimit < digits
          · rw [if_pos hd] at h; cases h
          · rw [if_neg hd] at h
            injection h with h
            subst h
            exact ⟨⟨_, rfl, by decide⟩, by simp [Dict.keys, nestedKeys], by simp [Dict.keys]⟩
    · cases h
  case list => cases h
  case map => cases h
  case struct => cases h
  case union => cases h
  case proxy => cases h
  all_goals
    (repeat' split at h) <;> cases h <;>
      exact ⟨⟨_, rfl, by decide⟩, by simp [Dict.keys, nestedKeys], by simp [Dict.keys]⟩

theorem logicalSchema_ok {t : RType} {d : Dict} (h : logicalSchema t = .ok d) :
    isLeaf t = true ∧ (∃ s, Dict.get? d "type" = some (.str s) ∧ s ∈ keywords) ∧
      (∀ k ∈ Dict.keys d, k ∉ nestedKeys) ∧ (Dict.keys d).Nodup := by
  cases t <;> simp only [logicalSchema] at h <;> (repeat' split at h) <;> cases h <;>
    exact ⟨rfl, ⟨_, rfl, by decide⟩, by simp [Dict.keys, nestedKeys], by simp [Dict.keys]⟩

/-! ## Dictionaries -/

theorem get?_update (e : Dict) (d : Dict) (k : String) (hn : (Dict.keys e).Nodup) :
    Dict.get? (Dict.update d e) k = (Dict.get? e k).or (Dict.get? d k) := by
  induction e generalizing d with
  | nil => rfl
  | cons kv e ih =>
    obtain ⟨k', v'⟩ := kv
    simp only [Dict.keys, List.map_cons, List.nodup_cons] at hn
    rw [Dict.update_cons, ih _ hn.2, Dict.get?_cons]
    by_cases hk : k' = k
    · subst hk
      rw [if_pos rfl, Dict.get?_eq_none_iff.mpr hn.1]
      simp [Dict.get?_set_self]
    · rw [if_neg hk, Dict.get?_set_ne _ _ hk]

theorem uses_str {x s : String} (h : Uses (.str x) s) : s = x := by cases h; rfl

theorem uses_shorten {d : Dict} {s : String} (h : Uses (shorten d) s) : Uses (.dict d) s := by
  rcases shorten_cases d with e | ⟨x, e, e'⟩
  · rwa [e] at h
  · rw [e'] at h
    rw [e]
    exact .type rfl h

theorem aliased_shorten {d : Dict} {s : String} (h : Aliased (.dict d) s) : Aliased (shorten d) s := by
  rcases shorten_cases d with e | ⟨x, e, e'⟩
  · rwa [e]
  · exfalso
    subst e
    obtain ⟨d', hp, xs, hg, _⟩ := h
    cases hp with
    | refl => simp [Dict.get?] at hg
    | type h1 h2 =>
      simp only [Dict.get?] at h1
      cases h1
      cases h2
    | items h1 _ => simp [Dict.get?] at h1
    | values h1 _ => simp [Dict.get?] at h1
    | field h1 _ _ => simp [Dict.get?] at h1

theorem aliased_field {v : PyVal} {s : String} (h : Aliased v s) : Aliased (fieldSchema v) s := by
  unfold fieldSchema
  split
  · obtain ⟨d', hp, _⟩ := h
    cases hp
  · exact h

theorem uses_field {v : PyVal} {s : String} (h : Uses (fieldSchema v) s) : Uses v s := by
  unfold fieldSchema at h
  split at h
  · cases h with
    | type h1 h2 => simp only [Dict.get?] at h1; cases h1; exact h2
    | items h1 _ => simp [Dict.get?] at h1
    | values h1 _ => simp [Dict.get?] at h1
    | field h1 _ _ => simp [Dict.get?] at h1
  · exact h

theorem Aliased.into {v w : PyVal} {s : String} (h : ∀ p, Part v p → Part w p) (ha : Aliased v s) : Aliased w s := by
  obtain ⟨d, hp, h2⟩ := ha
  exact ⟨d, h _ hp, h2⟩

theorem mem_convertAll {f : RType → Except PyErr PyVal} {ts : List RType} {vs : List PyVal}
    (h : convertAll f ts = .ok vs) {v : PyVal} (hv : v ∈ vs) : ∃ t ∈ ts, f t = .ok v := by
  induction ts generalizing vs with
  | nil => cases h; cases hv
  | cons t ts ih =>
    simp only [convertAll] at h
    obtain ⟨w, hw, h⟩ := ok_bind h
    obtain ⟨ws, hws, h⟩ := ok_bind h
    cases h
    rcases List.mem_cons.mp hv with rfl | hv
    · exact ⟨t, List.mem_cons_self, hw⟩
    · obtain ⟨t', h1, h2⟩ := ih hws hv
      exact ⟨t', List.mem_cons_of_mem _ h1, h2⟩

theorem convertAll_mem {f : RType → Except PyErr PyVal} {ts : List RType} {vs : List PyVal}
    (h : convertAll f ts = .ok vs) {t : RType} (ht : t ∈ ts) : ∃ v ∈ vs, f t = .ok v := by
  induction ts generalizing vs with
  | nil => cases ht
  | cons t' ts ih =>
    simp only [convertAll] at h
    obtain ⟨w, hw, h⟩ := ok_bind h
    obtain ⟨ws, hws, h⟩ := ok_bind h
    cases h
    rcases List.mem_cons.mp ht with rfl | ht
    · exact ⟨w, List.mem_cons_self, hw⟩
    · obtain ⟨v, h1, h2⟩ := ih hws ht
      exact ⟨v, List.mem_cons_of_mem _ h1, h2⟩

/-- What a description and further entries use. -/
theorem uses_described {a : Attrs} {s d : Dict} (h : describe a = .ok s) {x : String}
    (hu : Uses (.dict (s ++ d)) x) : Uses (.dict d) x := by
  cases hu with
  | type h1 h2 => rw [get_described h (by decide)] at h1; exact .type h1 h2
  | items h1 h2 => rw [get_described h (by decide)] at h1; exact .items h1 h2
  | values h1 h2 => rw [get_described h (by decide)] at h1; exact .values h1 h2
  | field h1 h2 h3 => rw [get_described h (by decide)] at h1; exact .field h1 h2 h3

theorem uses_leaf {d : Dict} {x s : String} (ht : Dict.get? d "type" = some (.str s)) (hs : s ∈ keywords)
    (hk : ∀ k ∈ Dict.keys d, k ∉ nestedKeys) (hu : Uses (.dict d) x) : x ∈ keywords := by
  have none : ∀ k ∈ nestedKeys, Dict.get? d k = .none := fun k h => Dict.get?_eq_none_iff.mpr fun h' => hk k h' h
  cases hu with
  | type h1 h2 => rw [ht] at h1; cases h1; rw [uses_str h2]; exact hs
  | items h1 h2 => rw [none "items" (by decide)] at h1; cases h1
  | values h1 h2 => rw [none "values" (by decide)] at h1; cases h1
  | field h1 h2 h3 => rw [none "fields" (by decide)] at h1; cases h1

/-! ## Types -/

/-- The references in the type are to aliases with a dot or to built-in ones. -/
def RefsOK (live : Registry) (t : RType) : Prop :=
  ∀ r a, Inside (.proxy r a) t → (∃ s, a.alias = .str s ∧ Qualified s) ∨ NamedBuiltin live r a

theorem hasDot_iff {s : String} : hasDot s = true ↔ Qualified s := by
  simp [hasDot, Qualified]

theorem builtin_noDot {s : String} {t : RType} (h : (s, t) ∈ builtinAliases) : hasDot s = false := by
  have : ∀ kt ∈ builtinAliases, hasDot kt.1 = false := by decide +kernel
  exact this _ h

/-- What is written of a leaf. -/
theorem convert_leaf {n : Nat} {t : RType} {v : PyVal} (ht : isLeaf t = true) (h : convertF live n t = .ok v) :
    ∃ s d, describe t.attrs = .ok s ∧ v = shorten (s ++ d) ∧
      (∃ x, Dict.get? d "type" = some (.str x) ∧ x ∈ keywords) ∧
      (∀ k ∈ Dict.keys d, k ∉ nestedKeys) ∧ (Dict.keys d).Nodup := by
  cases n with
  | zero => cases h
  | succ n =>
    simp only [convertF] at h
    obtain ⟨s, hs, h⟩ := ok_bind h
    have sub : ∀ d : Dict, (∀ k ∈ Dict.keys d, k ∉ nestedKeys) → (Dict.keys d).Nodup →
        Dict.update s d = s ++ d := fun d hd hn =>
      update_describe hs (fun k hk hm => hd k hk (by
        simp only [List.mem_cons, List.not_mem_nil, or_false] at hm
        rcases hm with rfl | rfl | rfl | rfl <;> decide)) hn
    split at h
    · obtain ⟨d, hd, h⟩ := ok_bind h
      cases h
      obtain ⟨-, h1, h2, h3⟩ := logicalSchema_ok hd
      exact ⟨s, d, hs, by rw [sub d h2 h3], h1, h2, h3⟩
    · split at h <;> first | (simp only [isLeaf, Bool.false_eq_true] at ht) | skip
      obtain ⟨d, hd, h⟩ := ok_bind h
      cases h
      obtain ⟨h1, h2, h3⟩ := leafSchema_ok hd
      exact ⟨s, d, hs, by rw [sub d h2 h3], h1, h2, h3⟩

theorem nodup_append_described {a : Attrs} {s d : Dict} (h : describe a = .ok s)
    (hd : ∀ k ∈ Dict.keys d, k ∉ nestedKeys) (hn : (Dict.keys d).Nodup) : (Dict.keys (s ++ d)).Nodup := by
  simp only [Dict.keys, List.map_append]
  refine List.nodup_append.mpr ⟨(describe_keys h).1, hn, ?_⟩
  rintro x hx y hy rfl
  have hm := (describe_keys h).2 x hx
  refine hd x hy ?_
  simp only [List.mem_cons, List.not_mem_nil, or_false] at hm
  rcases hm with rfl | rfl | rfl | rfl <;> decide

/-- The names that are used. -/
theorem convert_uses {n : Nat} {t : RType} {v : PyVal} (h : convertF live n t = .ok v) (hr : RefsOK live t)
    {x : String} (hu : Uses v x) :
    x ∈ keywords ∨ ∃ r a, Inside (.proxy r a) t ∧ a.alias = .str x ∧ Qualified x := by
  induction n generalizing t v x with
  | zero => cases h
  | succ n ih =>
    by_cases hl : isLeaf t = true
    · obtain ⟨s, d, hs, rfl, ⟨y, h1, h2⟩, h3, h4⟩ := convert_leaf hl h
      exact Or.inl (uses_leaf h1 h2 h3 (uses_described hs (uses_shorten hu)))
    · simp only [convertF] at h
      obtain ⟨s, hs, h⟩ := ok_bind h
      split at h
      · obtain ⟨d, hd, h⟩ := ok_bind h
        exact absurd (logicalSchema_ok hd).1 hl
      · split at h
        · -- struct
          rename_i fs a _
          obtain ⟨vs, hvs, h⟩ := ok_bind h
          cases h
          rw [update_describe hs (by simp [Dict.keys]) (by simp [Dict.keys])] at hu
          cases uses_described hs (uses_shorten hu) with
          | type h1 h2 => simp [Dict.get?] at h1; subst h1; rw [uses_str h2]; exact Or.inl (by decide)
          | items h1 h2 => simp [Dict.get?] at h1
          | values h1 h2 => simp [Dict.get?] at h1
          | field h1 h2 h3 =>
            simp [Dict.get?] at h1
            subst h1
            obtain ⟨w, hw, rfl⟩ := List.mem_map.mp h2
            obtain ⟨f, hf, hc⟩ := mem_convertAll hvs hw
            rcases ih hc (fun r a hi => hr r a (.field hf hi)) (uses_field h3) with h | ⟨r, b, hi, hb⟩
            · exact Or.inl h
            · exact Or.inr ⟨r, b, .field hf hi, hb⟩
        · -- list
          obtain ⟨w, hw, h⟩ := ok_bind h
          cases h
          rw [update_describe hs (by simp [Dict.keys]) (by simp [Dict.keys])] at hu
          cases uses_described hs (uses_shorten hu) with
          | type h1 h2 => simp [Dict.get?] at h1; subst h1; rw [uses_str h2]; exact Or.inl (by decide)
          | items h1 h2 =>
            simp [Dict.get?] at h1
            subst h1
            rcases ih hw (fun r a hi => hr r a (.list hi)) h2 with h | ⟨r, b, hi, hb⟩
            · exact Or.inl h
            · exact Or.inr ⟨r, b, .list hi, hb⟩
          | values h1 h2 => simp [Dict.get?] at h1
          | field h1 h2 h3 => simp [Dict.get?] at h1
        · -- map
          split at h
          case isFalse => cases h
          obtain ⟨w, hw, h⟩ := ok_bind h
          cases h
          rw [update_describe hs (by simp [Dict.keys]) (by simp [Dict.keys])] at hu
          cases uses_described hs (uses_shorten hu) with
          | type h1 h2 => simp [Dict.get?] at h1; subst h1; rw [uses_str h2]; exact Or.inl (by decide)
          | values h1 h2 =>
            simp [Dict.get?] at h1
            subst h1
            rcases ih hw (fun r a hi => hr r a (.value hi)) h2 with h | ⟨r, b, hi, hb⟩
            · exact Or.inl h
            · exact Or.inr ⟨r, b, .value hi, hb⟩
          | items h1 h2 => simp [Dict.get?] at h1
          | field h1 h2 h3 => simp [Dict.get?] at h1
        · -- union
          obtain ⟨vs, hvs, h⟩ := ok_bind h
          cases h
          rw [update_describe hs (by simp [Dict.keys]) (by simp [Dict.keys])] at hu
          cases uses_described hs (uses_shorten hu) with
          | type h1 h2 =>
            simp [Dict.get?] at h1
            subst h1
            cases h2 with
            | member h3 h4 =>
              obtain ⟨f, hf, hc⟩ := mem_convertAll hvs h3
              rcases ih hc (fun r a hi => hr r a (.member hf hi)) h4 with h | ⟨r, b, hi, hb⟩
              · exact Or.inl h
              · exact Or.inr ⟨r, b, .member hf hi, hb⟩
          | items h1 h2 => simp [Dict.get?] at h1
          | values h1 h2 => simp [Dict.get?] at h1
          | field h1 h2 h3 => simp [Dict.get?] at h1
        · -- reference
          rename_i r a _ _
          split at h
          case h_2 => cases h
          rename_i alias ha
          by_cases hd : hasDot alias = true
          · rw [if_pos hd] at h
            cases h
            have get : ∀ k, Dict.get? (Dict.erase (Dict.set s "type" (.str alias)) "aliases") k =
                if k = "type" then some (.str alias) else if k = "aliases" then .none else Dict.get? s k := by
              intro k
              rw [Dict.get?_erase]
              by_cases h1 : k = "type"
              · subst h1; simp [Dict.get?_set_self]
              · rw [Dict.get?_set_ne _ _ (fun h => h1 h.symm), if_neg h1]
                simp only [eq_comm]
            cases uses_shorten hu with
            | type h1 h2 =>
              rw [get] at h1
              cases h1
              cases uses_str h2
              exact Or.inr ⟨r, a, .refl, ha, hasDot_iff.mp hd⟩
            | items h1 h2 => rw [get] at h1; simp [get_describe hs] at h1
            | values h1 h2 => rw [get] at h1; simp [get_describe hs] at h1
            | field h1 h2 h3 => rw [get] at h1; simp [get_describe hs] at h1
          · rw [if_neg hd] at h
            obtain ⟨u, hu', h⟩ := ok_bind h
            obtain ⟨w, hw, h⟩ := ok_bind h
            rcases hr r a .refl with ⟨y, hy, hq⟩ | hb
            · rw [ha] at hy
              cases hy
              exact absurd (hasDot_iff.mpr hq) hd
            · obtain ⟨hlu, nm, hnm, hg⟩ := target_leaf hb hu'
              obtain ⟨s', d', hs', rfl, ⟨y, h1, h2⟩, h3, h4⟩ := convert_leaf hlu hw
              rcases shorten_cases (s' ++ d') with e | ⟨z, e, -⟩
              · rw [e] at h
                cases h
                have get : ∀ k, k ∉ ["doc", "name", "default", "aliases"] →
                    Dict.get? (Dict.erase (Dict.update s (s' ++ d')) "aliases") k = Dict.get? d' k := by
                  intro k hk
                  rw [Dict.get?_erase_ne _ (by rintro rfl; simp at hk),
                    get?_update _ _ _ (nodup_append_described hs' h3 h4), get_described hs' hk, get_describe hs hk]
                  simp
                refine Or.inl (uses_leaf h1 h2 h3 ?_)
                cases uses_shorten hu with
                | type h1 h2 => rw [get _ (by decide)] at h1; exact .type h1 h2
                | items h1 h2 => rw [get _ (by decide)] at h1; exact .items h1 h2
                | values h1 h2 => rw [get _ (by decide)] at h1; exact .values h1 h2
                | field h1 h2 h3 => rw [get _ (by decide)] at h1; exact .field h1 h2 h3
              · exfalso
                have : Dict.get? (s' ++ d') "name" = some (.str nm) := by
                  unfold describe at hs'
                  obtain ⟨al, hal, hs'⟩ := ok_bind hs'
                  cases hs'
                  have hn1 : nameOf u.attrs = [("name", .str nm)] := by
                    simp [nameOf, hg, PyVal.truthy, hnm]
                  rw [hn1]
                  have hd1 : Dict.get? (docOf u.attrs) "name" = .none := by
                    unfold docOf; split <;> simp [Dict.get?]
                  simp [Dict.get?_append, hd1, Dict.get?]
                rw [e] at this
                simp [Dict.get?] at this
        · rename_i hh1 hh2 hh3 hh4 hh5
          cases t <;> first
            | exact absurd rfl hl
            | exact (hh1 _ _ rfl).elim
            | exact (hh2 _ _ _ _ rfl).elim
            | exact (hh3 _ _ _ rfl).elim
            | exact (hh4 _ _ rfl).elim
            | exact (hh5 _ _ rfl).elim

/-- The aliases that are written. -/
theorem convert_aliased {n : Nat} {t u : RType} {v : PyVal} {x : String} (h : convertF live n t = .ok v)
    (hi : Inside u t) (hp : ¬ IsReference u) (ha : u.attrs.alias = .str x) (hq : Qualified x) : Aliased v x := by
  induction hi generalizing n v with
  | refl =>
    have al : ∀ s, describe u.attrs = .ok s →
        Dict.get? s "aliases" = some (.list [.str x]) := by
      intro s hs
      unfold describe at hs
      obtain ⟨al, hal, hs⟩ := ok_bind hs
      cases hs
      have hne : x ≠ "" := by rintro rfl; simp [Qualified] at hq
      have : al = [("aliases", .list [.str x])] := by
        rw [aliasesOf, ha] at hal
        simp [PyVal.truthy, hne, hasDot_iff.mpr hq] at hal
        exact hal.symm
      subst this
      have h1 : Dict.get? (docOf u.attrs) "aliases" = .none := by
        unfold docOf; split <;> simp [Dict.get?]
      have h2 : Dict.get? (nameOf u.attrs) "aliases" = .none := by
        unfold nameOf; (repeat' split) <;> simp [Dict.get?]
      have h3 : Dict.get? (copied u.attrs.extra "default") "aliases" = .none := by
        unfold copied; split <;> simp [Dict.get?]
      simp [Dict.get?_append, h1, h2, h3, Dict.get?]
    have fin : ∀ s d, describe u.attrs = .ok s → Aliased (shorten (s ++ d)) x := by
      intro s d hs
      refine aliased_shorten ⟨s ++ d, .refl, [.str x], ?_, by simp⟩
      rw [Dict.get?_append, al s hs]
    by_cases hl : isLeaf u = true
    · obtain ⟨s, d, hs, rfl, -⟩ := convert_leaf hl h
      exact fin s d hs
    · cases n with
      | zero => cases h
      | succ n =>
        simp only [convertF] at h
        obtain ⟨s, hs, h⟩ := ok_bind h
        split at h
        · obtain ⟨d, hd, h⟩ := ok_bind h
          exact absurd (logicalSchema_ok hd).1 hl
        · split at h
          · obtain ⟨vs, hvs, h⟩ := ok_bind h
            cases h
            rw [update_describe hs (by simp [Dict.keys]) (by simp [Dict.keys])]
            exact fin _ _ hs
          · obtain ⟨vs, hvs, h⟩ := ok_bind h
            cases h
            rw [update_describe hs (by simp [Dict.keys]) (by simp [Dict.keys])]
            exact fin _ _ hs
          · split at h
            case isFalse => cases h
            obtain ⟨vs, hvs, h⟩ := ok_bind h
            cases h
            rw [update_describe hs (by simp [Dict.keys]) (by simp [Dict.keys])]
            exact fin _ _ hs
          · obtain ⟨vs, hvs, h⟩ := ok_bind h
            cases h
            rw [update_describe hs (by simp [Dict.keys]) (by simp [Dict.keys])]
            exact fin _ _ hs
          · exact absurd ⟨_, _, rfl⟩ hp
          · rename_i hh1 hh2 hh3 hh4 hh5
            cases u <;> first
              | exact absurd rfl hl
              | exact (hh1 _ _ rfl).elim
              | exact (hh2 _ _ _ _ rfl).elim
              | exact (hh3 _ _ _ rfl).elim
              | exact (hh4 _ _ rfl).elim
              | exact (hh5 _ _ rfl).elim
  | list hi ih =>
    cases n with
    | zero => cases h
    | succ n =>
      simp only [convertF] at h
      obtain ⟨s, hs, h⟩ := ok_bind h
      split at h
      · obtain ⟨d, hd, h⟩ := ok_bind h
        cases (logicalSchema_ok hd).1
      · obtain ⟨w, hw, h⟩ := ok_bind h
        cases h
        rw [update_describe hs (by simp [Dict.keys]) (by simp [Dict.keys])]
        refine aliased_shorten (Aliased.into (fun p hp => .items ?_ hp) (ih hw))
        rw [get_described hs (by decide)]; rfl
  | value hi ih =>
    cases n with
    | zero => cases h
    | succ n =>
      simp only [convertF] at h
      obtain ⟨s, hs, h⟩ := ok_bind h
      split at h
      · obtain ⟨d, hd, h⟩ := ok_bind h
        cases (logicalSchema_ok hd).1
      · split at h
        case isFalse => cases h
        obtain ⟨w, hw, h⟩ := ok_bind h
        cases h
        rw [update_describe hs (by simp [Dict.keys]) (by simp [Dict.keys])]
        refine aliased_shorten (Aliased.into (fun p hp => .values ?_ hp) (ih hw))
        rw [get_described hs (by decide)]; rfl
  | field hf hi ih =>
    cases n with
    | zero => cases h
    | succ n =>
      simp only [convertF] at h
      obtain ⟨s, hs, h⟩ := ok_bind h
      split at h
      · obtain ⟨d, hd, h⟩ := ok_bind h
        cases (logicalSchema_ok hd).1
      · obtain ⟨vs, hvs, h⟩ := ok_bind h
        cases h
        obtain ⟨w, hw, hc⟩ := convertAll_mem hvs hf
        rw [update_describe hs (by simp [Dict.keys]) (by simp [Dict.keys])]
        refine aliased_shorten (Aliased.into (fun p hp => .field ?_ (List.mem_map.mpr ⟨w, hw, rfl⟩) hp)
          (aliased_field (ih hc)))
        rw [get_described hs (by decide)]; rfl
  | member hf hi ih =>
    cases n with
    | zero => cases h
    | succ n =>
      simp only [convertF] at h
      obtain ⟨s, hs, h⟩ := ok_bind h
      split at h
      · obtain ⟨d, hd, h⟩ := ok_bind h
        cases (logicalSchema_ok hd).1
      · obtain ⟨vs, hvs, h⟩ := ok_bind h
        cases h
        obtain ⟨w, hw, hc⟩ := convertAll_mem hvs hf
        rw [update_describe hs (by simp [Dict.keys]) (by simp [Dict.keys])]
        refine aliased_shorten (Aliased.into (fun p hp => .type ?_ (.member hw hp)) (ih hc))
        rw [get_described hs (by decide)]; rfl

end Recap.Avro
