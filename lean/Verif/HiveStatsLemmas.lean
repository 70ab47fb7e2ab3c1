import Verif.HiveStatsSpec
import Verif.CommandsJsonMore
import Verif.ClientsLemmas

/-! # Helper lemmas about statistics -/

set_option autoImplicit false

namespace Recap.Hive

open RType Recap.Spec Relational Hive.Spec
open Recap.Json.Spec (nameOf)

/-! ## One set of statistics -/

/-- The value that statistics give for a quantity. -/
def Stats.value (s : Stats) (k : String) : Option PyVal := if k = "null_count" then s.nulls else Dict.get? s.attrs k

theorem attrs_keys (s : Stats) : (Dict.keys s.attrs).Nodup ∧ Dict.get? s.attrs "null_count" = .none ∧
    Dict.get? s.attrs "name" = .none ∧ Dict.get? s.attrs "default" = .none := by
  cases s with
  | date l h c n => cases l <;> cases h <;> simp [Stats.attrs, bound, Dict.set, Dict.keys, Dict.get?]
  | decimal l h c n => cases l <;> cases h <;> simp [Stats.attrs, bound, Dict.set, Dict.keys, Dict.get?]
  | _ => simp [Stats.attrs, Dict.keys, Dict.get?]

theorem says_value {s : Stats} {k : String} {v : PyVal} (h : Says s k v) : s.value k = some v := by
  cases h with
  | @dateLow _ h => cases h <;> rfl
  | @dateHigh l => cases l <;> rfl
  | @dateCardinality l h => cases l <;> cases h <;> rfl
  | @decimalLow _ h => cases h <;> rfl
  | @decimalHigh l => cases l <;> rfl
  | @decimalCardinality l h => cases l <;> cases h <;> rfl
  | _ => rfl

theorem value_says {s : Stats} {k : String} {v : PyVal} (h : s.value k = some v) : Says s k v := by
  unfold Stats.value at h
  split at h
  · rename_i e
    subst e
    cases s <;> simp only [Stats.nulls, Option.some.injEq, reduceCtorEq] at h <;> subst h <;> constructor
  · cases s with
    | date l u c n =>
      cases l <;> cases u <;>
        (simp only [Stats.attrs, bound, Dict.set, Dict.get?, String.reduceEq, if_false] at h
         repeat' split at h
         all_goals first
           | (cases h; done)
           | (rename_i e; subst e; cases h; constructor)
           | skip)
    | decimal l u c n =>
      cases l <;> cases u <;>
        (simp only [Stats.attrs, bound, Dict.set, Dict.get?, String.reduceEq, if_false] at h
         repeat' split at h
         all_goals first
           | (cases h; done)
           | (rename_i e; subst e; cases h; constructor)
           | skip)
    | _ =>
      simp only [Stats.attrs, Dict.get?] at h
      repeat' split at h
      all_goals first
        | (cases h; done)
        | (rename_i e; subst e; cases h; constructor)

theorem get?_addStats (s : Stats) (t : RType) (k : String) :
    Dict.get? (addStats s t).attrs.extra k = (s.value k).or (Dict.get? t.attrs.extra k) := by
  obtain ⟨hn, h1, -, -⟩ := attrs_keys s
  unfold addStats Stats.value
  rw [attrs_withAttrs]
  have hu := Clients.get?_update' s.attrs t.attrs.extra k hn
  cases hs : s.nulls with
  | none =>
    simp only
    by_cases hk : k = "null_count"
    · subst hk
      rw [hu, h1]
      rfl
    · rw [if_neg hk, hu]
  | some n =>
    simp only
    by_cases hk : k = "null_count"
    · subst hk
      rw [Dict.get?_set_self]
      simp
    · rw [Dict.get?_set_ne _ _ (Ne.symm hk), if_neg hk, hu]

theorem addStats_shape (s : Stats) (t : RType) :
    addStats s t = t.withAttrs { t.attrs with extra := (addStats s t).attrs.extra } := by
  cases t <;> rfl

/-! ## The statistics of one column -/

/-- The value of a quantity after all statistics. -/
def latest (name k : String) : List ColumnStats → Option PyVal
  | [] => .none
  | c :: cs => (latest name k cs).or (if c.name = name then c.stats.bind (·.value k) else .none)

theorem latest_none {name k : String} : ∀ {cs : List ColumnStats}, latest name k cs = .none ↔
    ∀ s, ⟨name, some s⟩ ∈ cs → s.value k = .none
  | [] => by simp [latest]
  | c :: cs => by
    simp only [latest, Option.or_eq_none_iff, latest_none (cs := cs), List.mem_cons]
    constructor
    · rintro ⟨h1, h2⟩ s (rfl | hs)
      · simpa using h2
      · exact h1 s hs
    · intro h
      refine ⟨fun s hs => h s (.inr hs), ?_⟩
      split
      · rename_i e
        cases hc : c.stats with
        | none => rfl
        | some s => exact h s (.inl (by rw [← e, ← hc]))
      · rfl

theorem latest_iff {name k : String} {v : PyVal} : ∀ {cs : List ColumnStats}, latest name k cs = some v ↔ Latest cs name k v
  | [] => by
    refine iff_of_false (by simp [latest]) ?_
    rintro ⟨b, s, a, e, -⟩
    cases b <;> cases e
  | c :: cs => by
    rw [latest]
    cases hl : latest name k cs with
    | some w =>
      have hw := latest_iff.mp hl
      rw [Option.some_or]
      constructor
      · intro e
        cases e
        obtain ⟨b, s, a, rfl, h1, h2⟩ := hw
        exact ⟨c :: b, s, a, rfl, h1, h2⟩
      · rintro ⟨b, s, a, e, h1, h2⟩
        cases b with
        | nil =>
          cases e
          obtain ⟨b', s', a', rfl, h3, h4⟩ := hw
          exact absurd h3 (h2 s' (by simp) _)
        | cons c' b =>
          injection e with e1 e2
          have := latest_iff.mpr ⟨b, s, a, e2, h1, h2⟩
          rw [← hl, this]
    | none =>
      rw [Option.none_or]
      have hn := latest_none.mp hl
      constructor
      · intro h
        split at h
        · rename_i e
          cases hc : c.stats with
          | none => rw [hc] at h; cases h
          | some s =>
            rw [hc] at h
            refine ⟨[], s, cs, by rw [List.nil_append, ← e, ← hc], value_says h, ?_⟩
            intro s' hs' w hw
            have := hn s' hs'
            rw [says_value hw] at this
            cases this
        · cases h
      · rintro ⟨b, s, a, e, h1, h2⟩
        cases b with
        | nil =>
          cases e
          simpa using says_value h1
        | cons c' b =>
          cases e
          have := hn s (by simp)
          rw [says_value h1] at this
          cases this

/-- A field after the statistics that are for the place `i`. -/
def settle (ns : List (PyVal × Nat)) (i : Nat) : List ColumnStats → RType → RType
  | [], f => f
  | c :: cs, f =>
    settle ns i cs (match c.stats with
      | some s => if lookup ns c.name = some i then addStats s f else f
      | .none => f)

theorem settle_shape (ns : List (PyVal × Nat)) (i : Nat) : ∀ (cs : List ColumnStats) (f : RType),
    ∃ x, settle ns i cs f = f.withAttrs { f.attrs with extra := x }
  | [], f => ⟨f.attrs.extra, by cases f <;> rfl⟩
  | c :: cs, f => by
    rw [settle]
    split
    · rename_i s _
      split
      · obtain ⟨x, h⟩ := settle_shape ns i cs (addStats s f)
        refine ⟨x, ?_⟩
        rw [h, addStats_shape]
        cases f <;> rfl
      · exact settle_shape ns i cs f
    · exact settle_shape ns i cs f

theorem settle_get {ns : List (PyVal × Nat)} {i : Nat} {name : String} {last : Prop}
    (h : ∀ n, lookup ns n = some i ↔ n = name ∧ last) (k : String) : ∀ (cs : List ColumnStats) (f : RType),
    (last → Dict.get? (settle ns i cs f).attrs.extra k = (latest name k cs).or (Dict.get? f.attrs.extra k)) ∧
    (¬last → settle ns i cs f = f)
  | [], f => ⟨fun _ => rfl, fun _ => rfl⟩
  | c :: cs, f => by
    rw [settle, latest]
    constructor
    · intro hl
      have ih := fun f => (settle_get h k cs f).1 hl
      cases hc : c.stats with
      | none => simp [ih]
      | some s =>
        by_cases hn : c.name = name
        · have := (h c.name).mpr ⟨hn, hl⟩
          simp only [this, if_true, ih, get?_addStats, Option.bind_some, Option.or_assoc]
          rw [if_pos hn]
        · have : lookup ns c.name ≠ some i := fun e => hn ((h _).mp e).1
          simp only [this, hn, if_false, ih, Option.or_none]
    · intro hl
      have ih := (settle_get h k cs f).2 hl
      cases hc : c.stats with
      | none => exact ih
      | some s =>
        have : lookup ns c.name ≠ some i := fun e => hl ((h _).mp e).2
        simp only [this, if_false]
        exact ih

/-! ## All columns -/

theorem loadAll_ok {ns : List (PyVal × Nat)} : ∀ {cs : List ColumnStats} {fs fs' : List RType},
    loadAll ns cs fs = .ok fs' → fs'.length = fs.length ∧ ∀ i : Nat, fs'[i]? = fs[i]?.map (settle ns i cs)
  | [], fs, fs', h => by
    rw [loadAll] at h
    cases h
    refine ⟨rfl, fun i => ?_⟩
    cases fs[i]? <;> rfl
  | c :: cs, fs, fs', h => by
    rw [loadAll] at h
    cases hc : c.stats with
    | none =>
      rw [hc] at h
      obtain ⟨h1, h2⟩ := loadAll_ok h
      refine ⟨h1, fun i => ?_⟩
      rw [h2]
      cases fs[i]? <;> simp [settle, hc]
    | some s =>
      rw [hc] at h
      simp only at h
      cases hl : lookup ns c.name with
      | none => rw [hl] at h; cases h
      | some j =>
        rw [hl] at h
        obtain ⟨h1, h2⟩ := loadAll_ok h
        refine ⟨by rw [h1, List.length_modify], fun i => ?_⟩
        rw [h2, List.getElem?_modify]
        cases fs[i]? with
        | none => rfl
        | some f =>
          by_cases hij : j = i
          · subst hij; simp [settle, hc, hl]
          · simp [settle, hc, hl, hij]

theorem loadAll_total {ns : List (PyVal × Nat)} : ∀ {cs : List ColumnStats} {fs : List RType},
    (∀ c ∈ cs, c.stats.isSome = true → (lookup ns c.name).isSome = true) → ∃ fs', loadAll ns cs fs = .ok fs'
  | [], fs, _ => ⟨fs, rfl⟩
  | c :: cs, fs, h => by
    have ih := fun fs => loadAll_total (fs := fs) (fun d hd => h d (List.mem_cons_of_mem _ hd))
    rw [loadAll]
    cases hc : c.stats with
    | none => exact ih _
    | some s =>
      have := h c (List.mem_cons_self ..) (by rw [hc]; rfl)
      cases hl : lookup ns c.name with
      | none => rw [hl] at this; cases this
      | some j => exact ih _

theorem loadAll_missing {ns : List (PyVal × Nat)} {c : ColumnStats} : ∀ {cs : List ColumnStats} {fs : List RType},
    c ∈ cs → c.stats.isSome = true → lookup ns c.name = .none → loadAll ns cs fs = .error .keyError
  | d :: cs, fs, hm, hs, hl => by
    rw [loadAll]
    rcases List.mem_cons.mp hm with rfl | hm
    · cases hc : c.stats with
      | none => rw [hc] at hs; cases hs
      | some s => simp only [hl]
    · cases hc : d.stats with
      | none => exact loadAll_missing hm hs hl
      | some s =>
        simp only
        cases lookup ns d.name with
        | none => rfl
        | some j => exact loadAll_missing hm hs hl

theorem lookup_cons (p : PyVal × Nat) (ns : List (PyVal × Nat)) (name : String) :
    lookup (p :: ns) name = (lookup ns name).or (if p.1 = .str name then some p.2 else .none) := by
  unfold lookup
  rw [List.reverse_cons, List.find?_append]
  cases List.find? (fun p => decide (p.1 = PyVal.str name)) ns.reverse with
  | some q => rfl
  | none =>
    simp only [Option.none_or, Option.map_none, List.find?_cons, List.find?_nil]
    by_cases h : p.1 = .str name <;> simp [h]

/-- The names of columns with their places. -/
def places (n : Nat) (cols : List HColumn) : List (PyVal × Nat) := (cols.map (fun c => PyVal.str c.name)).zipIdx n

theorem places_cons (n : Nat) (c : HColumn) (cols : List HColumn) :
    places n (c :: cols) = (.str c.name, n) :: places (n + 1) cols := by simp [places]

theorem lookup_none (name : String) : ∀ (cols : List HColumn) (n : Nat),
    lookup (places n cols) name = .none ↔ ∀ c ∈ cols, c.name ≠ name
  | [], n => by simp [places, lookup]
  | c :: cols, n => by
    rw [places_cons, lookup_cons, Option.or_eq_none_iff, lookup_none name cols]
    simp only [List.mem_cons, forall_eq_or_imp, PyVal.str.injEq]
    by_cases h : c.name = name <;> simp [h]

theorem lookup_ge {name : String} {cols : List HColumn} {n j : Nat} (h : lookup (places n cols) name = some j) : n ≤ j := by
  unfold lookup at h
  obtain ⟨p, hp, rfl⟩ := Option.map_eq_some_iff.mp h
  have := List.mem_of_find?_eq_some hp
  rw [List.mem_reverse] at this
  exact List.le_snd_of_mem_zipIdx this

theorem lookup_places (name : String) : ∀ (cols : List HColumn) (n i : Nat),
    lookup (places n cols) name = some (n + i) ↔
      (∃ c, cols[i]? = some c ∧ c.name = name) ∧ LastOfName cols i name
  | [], n, i => by simp [places, lookup]
  | c :: cols, n, i => by
    rw [places_cons, lookup_cons]
    cases i with
    | zero =>
      have later : LastOfName (c :: cols) 0 name ↔ ∀ d ∈ cols, d.name ≠ name := by
        constructor
        · intro h d hd
          obtain ⟨j, hj, rfl⟩ := List.mem_iff_getElem.mp hd
          exact h (j + 1) _ (by omega) (by rw [List.getElem?_cons_succ, List.getElem?_eq_getElem hj])
        · intro h j d hj hd
          obtain ⟨k, rfl⟩ : ∃ k, j = k + 1 := ⟨j - 1, by omega⟩
          exact h d (List.mem_of_getElem? hd)
      rw [later, ← lookup_none name cols (n + 1)]
      cases hl : lookup (places (n + 1) cols) name with
      | some j =>
        have := lookup_ge hl
        simp only [Option.some_or, reduceCtorEq, and_false, iff_false, Option.some.injEq]
        omega
      | none => simp
    | succ i =>
      have ih := lookup_places name cols (n + 1) i
      have later : LastOfName (c :: cols) (i + 1) name ↔ LastOfName cols i name := by
        constructor
        · intro h j d hj hd
          exact h (j + 1) d (by omega) hd
        · intro h j d hj hd
          obtain ⟨k, rfl⟩ : ∃ k, j = k + 1 := ⟨j - 1, by omega⟩
          exact h k d (by omega) hd
      rw [later, List.getElem?_cons_succ, ← ih, show n + (i + 1) = n + 1 + i by omega]
      cases hl : lookup (places (n + 1) cols) name with
      | some j => simp
      | none =>
        simp only [Option.none_or, reduceCtorEq, iff_false]
        split <;> simp
        omega

/-- The names of the fields of a table. -/
theorem index_columns : ∀ {cols : List HColumn} {fs : List RType} (n : Nat), parseColumns cols = .ok fs →
    index n fs = .ok (places n cols)
  | [], fs, n, h => by
    rw [parseColumns] at h
    cases h
    rfl
  | c :: cols, fs, n, h => by
    rw [parseColumns] at h
    obtain ⟨t, h1, h⟩ := bind_ok h
    obtain ⟨ts, h2, h⟩ := bind_ok h
    cases h
    have hn : Dict.get? t.attrs.extra "name" = some (.str c.name) := parse_nameOf (given_column ..) h1
    rw [index, hn]
    simp only [index_columns (n + 1) h2, bind, Except.bind, places_cons]
    rfl

theorem parseColumns_length : ∀ {cols : List HColumn} {fs : List RType}, parseColumns cols = .ok fs → fs.length = cols.length
  | [], fs, h => by
    rw [parseColumns] at h
    cases h
    rfl
  | c :: cols, fs, h => by
    rw [parseColumns] at h
    obtain ⟨t, h1, h⟩ := bind_ok h
    obtain ⟨ts, h2, h⟩ := bind_ok h
    cases h
    simp [parseColumns_length h2]

/-- The field at a place is for the column at that place. -/
theorem parseColumns_at : ∀ {cols : List HColumn} {fs : List RType} {i : Nat} {f : RType}, parseColumns cols = .ok fs →
    fs[i]? = some f → ∃ c, cols[i]? = some c ∧ Hive.parse (columnAttrs c.name c.comment) c.type = .ok f
  | [], fs, i, f, h, hf => by
    rw [parseColumns] at h
    cases h
    simp at hf
  | c :: cols, fs, i, f, h, hf => by
    rw [parseColumns] at h
    obtain ⟨t, h1, h⟩ := bind_ok h
    obtain ⟨ts, h2, h⟩ := bind_ok h
    cases h
    cases i with
    | zero => cases hf; exact ⟨c, rfl, h1⟩
    | succ i =>
      have := parseColumns_at (i := i) (f := f) h2 (by simpa using hf)
      simpa using this

end Recap.Hive
