import Verif.StorageSpec

/-! # Lemmas about the file system and the storage -/

set_option autoImplicit false

namespace Recap

namespace FS

theorem at?_nil (fs : FS) : at? fs [] = some .dir := by
  cases fs <;> rfl

theorem at?_cons {p : Place} (hp : p ≠ []) (q : Place) (n : Node) (rest : FS) :
    at? ((q, n) :: rest) p = if q = p then some n else at? rest p := by
  cases p with
  | nil => exact absurd rfl hp
  | cons => rfl

theorem at?_empty {p : Place} (hp : p ≠ []) : at? [] p = none := by
  cases p with
  | nil => exact absurd rfl hp
  | cons => rfl

theorem at?_write {p : Place} (hp : p ≠ []) (n : Node) (q : Place) (fs : FS) :
    at? (write fs p n) q = if q = p then some n else at? fs q := by
  by_cases hq : q = []
  · subst hq
    rw [at?_nil, at?_nil]
    simp [Ne.symm hp]
  · induction fs with
    | nil =>
      rw [write, at?_cons hq, at?_empty hq]
      by_cases h : p = q
      · subst h; simp
      · simp [h, Ne.symm h]
    | cons e rest ih =>
      obtain ⟨r, m⟩ := e
      unfold write
      by_cases hr : r = p
      · rw [if_pos hr, at?_cons hq, at?_cons hq]
        subst hr
        by_cases h : r = q
        · subst h; simp
        · simp [h, Ne.symm h]
      · rw [if_neg hr, at?_cons hq, at?_cons hq, ih]
        by_cases h : r = q
        · subst h; simp [hr]
        · simp [h]

theorem write_keys (fs : FS) (p : Place) (n : Node) (q : Place) :
    q ∈ (write fs p n).map (·.1) ↔ q = p ∨ q ∈ fs.map (·.1) := by
  induction fs with
  | nil => simp [write]
  | cons e rest ih =>
    obtain ⟨r, m⟩ := e
    unfold write
    by_cases hr : r = p
    · subst hr; simp
    · rw [if_neg hr, List.map_cons, List.mem_cons, ih, List.map_cons, List.mem_cons]
      constructor
      · rintro (h | h | h) <;> simp [h]
      · rintro (h | h | h) <;> simp [h]

theorem write_nodup {fs : FS} (h : (fs.map (·.1)).Nodup) (p : Place) (n : Node) :
    ((write fs p n).map (·.1)).Nodup := by
  induction fs with
  | nil => simp [write]
  | cons e rest ih =>
    obtain ⟨r, m⟩ := e
    rw [List.map_cons, List.nodup_cons] at h
    unfold write
    by_cases hr : r = p
    · subst hr
      rw [if_pos rfl, List.map_cons, List.nodup_cons]; exact h
    · rw [if_neg hr, List.map_cons, List.nodup_cons]
      refine ⟨?_, ih h.2⟩
      rw [write_keys]
      rintro (h1 | h1)
      · exact hr h1
      · exact h.1 h1

theorem nameIn_eq_some {p q : Place} {c : Str} : nameIn p q = some c ↔ q = p ++ [c] := by
  induction p generalizing q with
  | nil =>
    cases q with
    | nil => simp [nameIn]
    | cons x xs => cases xs <;> simp [nameIn]
  | cons d p ih =>
    cases q with
    | nil => simp [nameIn]
    | cons e q =>
      rw [nameIn]
      by_cases h : d = e
      · subst h; simp [ih]
      · simp [h, Ne.symm h]

theorem mem_keys (fs : FS) {p : Place} (hp : p ≠ []) :
    p ∈ fs.map (·.1) ↔ at? fs p ≠ none := by
  induction fs with
  | nil => rw [at?_empty hp]; simp
  | cons e rest ih =>
    obtain ⟨r, m⟩ := e
    rw [at?_cons hp, List.map_cons, List.mem_cons, ih]
    by_cases h : r = p
    · simp [h]
    · simp [h, Ne.symm h]

theorem mem_names (fs : FS) (p : Place) (c : Str) :
    c ∈ names fs p ↔ at? fs (p ++ [c]) ≠ none := by
  have hq : p ++ [c] ≠ [] := by simp
  rw [← mem_keys fs hq]
  simp only [names, List.mem_filterMap, nameIn_eq_some, List.mem_map]

theorem names_nodup {fs : FS} (h : (fs.map (·.1)).Nodup) (p : Place) : (names fs p).Nodup := by
  induction fs with
  | nil => simp [names]
  | cons e rest ih =>
    obtain ⟨r, m⟩ := e
    rw [List.map_cons, List.nodup_cons] at h
    have ih := ih h.2
    unfold names
    rw [List.filterMap_cons]
    cases hc : nameIn p r with
    | none => exact ih
    | some c =>
      rw [nameIn_eq_some] at hc
      simp only
      rw [List.nodup_cons]
      refine ⟨?_, ih⟩
      intro hx
      have hx := (mem_names rest p c).mp hx
      rw [← mem_keys rest (by simp), ← hc] at hx
      exact h.1 hx

/-- Everything that exists is in a directory that exists. -/
def Tree (fs : FS) : Prop := ∀ p c n, at? fs (p ++ [c]) = some n → at? fs p = some .dir

theorem Tree.above {fs : FS} (h : Tree fs) : ∀ (q p : Place) (n : Node),
    q ≠ [] → at? fs (p ++ q) = some n → at? fs p = some .dir := by
  intro q
  induction q with
  | nil => intro p n hq; exact absurd rfl hq
  | cons c q ih =>
    intro p n _ hn
    by_cases hq : q = []
    · subst hq; exact h _ _ _ hn
    · have : p ++ c :: q = (p ++ [c]) ++ q := by simp
      rw [this] at hn
      exact h _ _ _ (ih _ _ hq hn)

theorem Tree.write {fs : FS} (h : Tree fs) {p : Place} {c : Str} {n : Node}
    (hp : at? fs p = some .dir) (hc : n = .dir ∨ at? fs (p ++ [c]) ≠ some .dir) :
    Tree (write fs (p ++ [c]) n) := by
  intro q d m hm
  rw [at?_write (by simp)] at hm ⊢
  by_cases h1 : q ++ [d] = p ++ [c]
  · have : q = p := List.append_inj_left' h1 rfl
    subst this
    have h2 : q ≠ q ++ [c] := by
      intro hh; have := congrArg List.length hh; simp at this
    rw [if_neg h2]; exact hp
  · rw [if_neg h1] at hm
    have hq := h _ _ _ hm
    by_cases h2 : q = p ++ [c]
    · rcases hc with hc | hc
      · rw [if_pos h2, hc]
      · subst h2; exact absurd hq hc
    · rw [if_neg h2]; exact hq

/-- A missing place below directories. -/
theorem missing_eq {fs : FS} : ∀ (ps : List Str) (acc : Place),
    (∀ q r, ps = q ++ r → q ≠ [] → ∀ c, at? fs (acc ++ q) ≠ some (.file c)) →
    missing fs acc ps = .fileNotFound := by
  intro ps
  induction ps with
  | nil => intro acc _; rfl
  | cons p ps ih =>
    intro acc h
    have h1 := h [p] ps rfl (by simp)
    rw [missing]
    split
    · rename_i c hc; exact absurd hc (h1 c)
    · apply ih
      intro q r hq hne
      have := h (p :: q) r (by rw [hq]; rfl) (by simp)
      rw [List.append_assoc]; exact this

theorem missing_below {fs : FS} (ht : Tree fs) {p : Place} (hp : at? fs p = some .dir) (c : Str)
    (hc : at? fs (p ++ [c]) = none) (qs : List Str) :
    missing fs [] (p ++ c :: qs) = .fileNotFound := by
  apply missing_eq
  intro q r hqr hne x hx
  rw [List.nil_append] at hx
  rcases List.append_eq_append_iff.mp hqr with ⟨a, h1, h2⟩ | ⟨a, h1, h2⟩
  · -- q = p ++ a
    cases a with
    | nil =>
      rw [h1, List.append_nil, hp] at hx; cases hx
    | cons b a =>
      rw [List.cons_append] at h2
      injection h2 with h2 h3
      subst h2
      by_cases ha : a = []
      · subst ha; rw [h1, hc] at hx; cases hx
      · have e : p ++ c :: a = (p ++ [c]) ++ a := by simp
        rw [h1, e] at hx
        have := ht.above _ _ _ ha hx
        rw [hc] at this; cases this
  · by_cases ha : a = []
    · subst ha; rw [List.append_nil] at h1; rw [← h1, hp] at hx; cases hx
    · rw [h1] at hp
      have := ht.above _ _ _ ha hp
      rw [this] at hx; cases hx

/-- Making a path whose directories exist changes nothing. -/
theorem makeDirs_exists {fs : FS} : ∀ (ps : List Str) (acc : Place),
    (∀ q r, ps = q ++ r → q ≠ [] → at? fs (acc ++ q) = some .dir) → makeDirs fs acc ps = .ok fs := by
  intro ps
  induction ps with
  | nil => intro acc _; rfl
  | cons p ps ih =>
    intro acc h
    have h1 := h [p] ps rfl (by simp)
    rw [makeDirs, h1]
    apply ih
    intro q r hq hne
    have := h (p :: q) r (by rw [hq]; rfl) (by simp)
    rw [List.append_assoc]; exact this

theorem makeDirs_append {fs fs1 : FS} : ∀ (ps qs : List Str) (acc : Place),
    makeDirs fs acc ps = .ok fs1 → makeDirs fs acc (ps ++ qs) = makeDirs fs1 (acc ++ ps) qs := by
  intro ps
  induction ps generalizing fs with
  | nil => intro qs acc h; cases h; simp
  | cons p ps ih =>
    intro qs acc h
    rw [makeDirs] at h
    rw [List.cons_append, makeDirs]
    have e : acc ++ p :: ps = (acc ++ [p]) ++ ps := by simp
    rw [e]
    cases hat : at? fs (acc ++ [p]) with
    | none => rw [hat] at h; exact ih qs _ h
    | some n =>
      rw [hat] at h
      cases n with
      | dir => exact ih qs _ h
      | file c => cases h

/-- Making a path below an existing directory. -/
theorem makeDirs_one {fs : FS} (ht : Tree fs) {p : Place} (hp : at? fs p = some .dir) (c : Str) :
    makeDirs fs [] (p ++ [c]) = match at? fs (p ++ [c]) with
      | some .dir => .ok fs
      | some (.file _) => .error .fileExists
      | none => .ok (write fs (p ++ [c]) .dir) := by
  have h0 : makeDirs fs [] p = .ok fs := by
    apply makeDirs_exists
    intro q r hq _
    rw [List.nil_append]
    by_cases hr : r = []
    · subst hr; rw [List.append_nil] at hq; rw [← hq]; exact hp
    · rw [hq] at hp; exact ht.above r q _ hr hp
  rw [makeDirs_append _ _ _ h0, List.nil_append, makeDirs]
  cases hat : at? fs (p ++ [c]) with
  | none => rfl
  | some n => cases n <;> rfl

end FS

/-! ## Paths -/

theorem splitSlash_slash (s t : Str) : splitSlash (s ++ '/' :: t) = splitSlash s ++ splitSlash t := by
  induction s with
  | nil =>
    rw [List.nil_append]
    conv => lhs; unfold splitSlash
    cases h : splitSlash t with
    | nil => exact absurd h (splitSlash_ne_nil t)
    | cons p ps => simp [splitSlash]
  | cons c s ih =>
    rw [List.cons_append, splitSlash, ih]
    rw [show splitSlash (c :: s) = match splitSlash s with
      | [] => [[c]]
      | p :: ps => if c = '/' then [] :: p :: ps else (c :: p) :: ps from rfl]
    cases h : splitSlash s with
    | nil => exact absurd h (splitSlash_ne_nil s)
    | cons p ps =>
      simp only [List.cons_append]
      split <;> simp

theorem walk_append (ps qs : List Str) (acc : List Str) : walk acc (ps ++ qs) = walk (walk acc ps) qs := by
  induction ps generalizing acc with
  | nil => rfl
  | cons p ps ih =>
    rw [List.cons_append, walk, walk]
    split
    · exact ih acc
    · split
      · exact ih _
      · exact ih _

theorem locate_slash (s : Str) {p : Str} (h1 : '/' ∉ p) (h2 : p ≠ []) (h3 : p ≠ ['.'])
    (h4 : p ≠ ['.', '.']) : locate (s ++ '/' :: p) = locate s ++ [p] := by
  unfold locate
  rw [splitSlash_slash, walk_append, splitSlash_part h1, walk]
  simp [h2, h3, h4, walk]

theorem locate_dirPath (root : Str) {name : Str} (h : Spec.OrdinaryName name) :
    locate (dirPath root name) = locate root ++ [quotePlus name] := by
  have ho := quotePlus_ordinary h.1 h.2.1 h.2.2
  exact locate_slash root (quotePlus_no_slash name) ho.1 ho.2.1 ho.2.2

theorem versionFile_plain (v : Int) : '/' ∉ versionFile v ∧ versionFile v ≠ [] ∧
    versionFile v ≠ ['.'] ∧ versionFile v ≠ ['.', '.'] := by
  obtain ⟨⟨c, cs, hc⟩, _, hs⟩ := intStr_chars v
  have hlen : 6 ≤ (versionFile v).length := by
    simp [versionFile, hc]
  refine ⟨?_, ?_, ?_, ?_⟩
  · unfold versionFile
    rw [List.mem_append]
    rintro (h | h)
    · exact hs h
    · revert h; decide
  all_goals intro h; rw [h] at hlen; simp at hlen

theorem locate_filePath_any (root name : Str) (v : Int) :
    locate (filePath root name v) = locate (dirPath root name) ++ [versionFile v] := by
  obtain ⟨h1, h2, h3, h4⟩ := versionFile_plain v
  exact locate_slash _ h1 h2 h3 h4

theorem locate_filePath (root : Str) {name : Str} (h : Spec.OrdinaryName name) (v : Int) :
    locate (filePath root name v) = locate root ++ [quotePlus name, versionFile v] := by
  rw [locate_filePath_any, locate_dirPath root h]; simp

theorem stem_versionFile (v : Int) : strInt (stem (versionFile v)) = some v := by
  obtain ⟨⟨c, cs, hc⟩, _, _⟩ := intStr_chars v
  have : intStr v ≠ [] := by rw [hc]; simp
  rw [versionFile, stem_json this, strInt_intStr]

theorem versionFile_injective {v w : Int} (h : versionFile v = versionFile w) : v = w := by
  have := congrArg (fun f => strInt (stem f)) h
  simp only [stem_versionFile] at this
  exact Option.some.inj this

/-! ## Sorting -/

theorem mem_insertBy {α : Type} (le : α → α → Bool) (x y : α) (l : List α) :
    y ∈ insertBy le x l ↔ y = x ∨ y ∈ l := by
  induction l with
  | nil => simp [insertBy]
  | cons z l ih =>
    unfold insertBy
    split
    · simp
    · rw [List.mem_cons, ih, List.mem_cons]
      constructor
      · rintro (h | h | h) <;> simp [h]
      · rintro (h | h | h) <;> simp [h]

theorem mem_sortBy {α : Type} (le : α → α → Bool) (y : α) (l : List α) :
    y ∈ sortBy le l ↔ y ∈ l := by
  induction l with
  | nil => simp [sortBy]
  | cons x l ih => rw [sortBy, mem_insertBy, ih, List.mem_cons]

theorem insertBy_ascending {x : Int} {l : List Int} (hx : x ∉ l) (h : Spec.Ascending l) :
    Spec.Ascending (insertBy (fun a b => decide (a ≤ b)) x l) := by
  induction l with
  | nil => simp [insertBy, Spec.Ascending]
  | cons y l ih =>
    unfold insertBy
    split
    · rename_i hle
      have hle : x ≤ y := by simpa using hle
      have hlt : x < y := by
        rcases Int.lt_or_eq_of_le hle with h1 | h1
        · exact h1
        · exact absurd (by simp [h1]) hx
      refine ⟨?_, h⟩
      intro z hz
      rcases List.mem_cons.mp hz with rfl | hz
      · exact hlt
      · exact Int.lt_trans hlt (h.1 z hz)
    · rename_i hle
      have hle : y < x := by simpa using hle
      refine ⟨?_, ih (fun hm => hx (List.mem_cons_of_mem _ hm)) h.2⟩
      intro z hz
      rcases (mem_insertBy _ _ _ _).mp hz with rfl | hz
      · exact hle
      · exact h.1 z hz

theorem sortBy_ascending {l : List Int} (h : l.Nodup) :
    Spec.Ascending (sortBy (fun a b => decide (a ≤ b)) l) := by
  induction l with
  | nil => trivial
  | cons x l ih =>
    rw [List.nodup_cons] at h
    rw [sortBy]
    apply insertBy_ascending
    · rw [mem_sortBy]; exact h.1
    · exact ih h.2

theorem strLe_lt : ∀ {s t : Str}, strLe s t = true → s ≠ t → Spec.StrLt s t
  | [], [], _, h => absurd rfl h
  | [], _ :: _, _, _ => .nil
  | _ :: _, [], h, _ => by simp [strLe] at h
  | a :: s, b :: t, h, hne => by
    rw [strLe] at h
    split at h
    · rename_i hab
      subst hab
      exact .tail (strLe_lt h (fun e => hne (by rw [e])))
    · exact .head (by simpa using h)

theorem strLe_total : ∀ {s t : Str}, strLe s t = false → Spec.StrLt t s
  | [], _, h => by simp [strLe] at h
  | _ :: _, [], _ => .nil
  | a :: s, b :: t, h => by
    rw [strLe] at h
    split at h
    · rename_i hab
      subst hab
      exact .tail (strLe_total h)
    · rename_i hab
      refine .head ?_
      have h1 : ¬ a.toNat < b.toNat := by simpa using h
      have h2 : a.toNat ≠ b.toNat := fun e => hab (Char.toNat_inj.mp e)
      omega

theorem StrLt.trans {s t u : Str} (h1 : Spec.StrLt s t) (h2 : Spec.StrLt t u) : Spec.StrLt s u := by
  induction h1 generalizing u with
  | nil => cases h2 <;> exact .nil
  | head hab =>
    cases h2 with
    | head hbc => exact .head (Nat.lt_trans hab hbc)
    | tail _ => exact .head hab
  | tail _ ih =>
    cases h2 with
    | head hbc => exact .head hbc
    | tail h => exact .tail (ih h)

theorem insertBy_ascendingNames {x : Str} {l : List Str} (hx : x ∉ l) (h : Spec.AscendingNames l) :
    Spec.AscendingNames (insertBy strLe x l) := by
  induction l with
  | nil => simp [insertBy, Spec.AscendingNames]
  | cons y l ih =>
    unfold insertBy
    split
    · rename_i hle
      have hlt := strLe_lt hle (fun e => hx (by simp [e]))
      refine ⟨?_, h⟩
      intro z hz
      rcases List.mem_cons.mp hz with rfl | hz
      · exact hlt
      · exact StrLt.trans hlt (h.1 z hz)
    · rename_i hle
      have hle := strLe_total (Bool.eq_false_iff.mpr hle)
      refine ⟨?_, ih (fun hm => hx (List.mem_cons_of_mem _ hm)) h.2⟩
      intro z hz
      rcases (mem_insertBy _ _ _ _).mp hz with rfl | hz
      · exact hle
      · exact h.1 z hz

theorem sortBy_ascendingNames {l : List Str} (h : l.Nodup) : Spec.AscendingNames (sortBy strLe l) := by
  induction l with
  | nil => trivial
  | cons x l ih =>
    rw [List.nodup_cons] at h
    rw [sortBy]
    apply insertBy_ascendingNames
    · rw [mem_sortBy]; exact h.1
    · exact ih h.2

theorem maxInt_spec (x : Int) (l : List Int) :
    maxInt x l ∈ x :: l ∧ ∀ y ∈ x :: l, y ≤ maxInt x l := by
  induction l generalizing x with
  | nil => simp [maxInt]
  | cons y l ih =>
    rw [maxInt]
    obtain ⟨h1, h2⟩ := ih (if x < y then y else x)
    by_cases h : x < y
    · simp only [h, if_true] at h1 h2 ⊢
      refine ⟨List.mem_cons_of_mem _ h1, ?_⟩
      intro z hz
      rcases List.mem_cons.mp hz with rfl | hz
      · exact Int.le_trans (Int.le_of_lt h) (h2 y (by simp))
      · exact h2 z hz
    · simp only [h, if_false] at h1 h2 ⊢
      constructor
      · rcases List.mem_cons.mp h1 with h1 | h1
        · rw [h1]; simp
        · exact List.mem_cons_of_mem _ (List.mem_cons_of_mem _ h1)
      · intro z hz
        rcases List.mem_cons.mp hz with rfl | hz
        · exact h2 _ (by simp)
        · rcases List.mem_cons.mp hz with rfl | hz
          · exact Int.le_trans (by omega) (h2 x (by simp))
          · exact h2 z (List.mem_cons_of_mem _ hz)

/-! ## The storage and the abstract store -/

/-- The file system `fs` below `root` represents the store `s`. -/
structure Rep (root : Str) (fs : FS) (s : Spec.Store) : Prop where
  nodup : (fs.map (·.1)).Nodup
  tree : fs.Tree
  root_dir : fs.at? (locate root) = some .dir
  dirs : ∀ c n, fs.at? (locate root ++ [c]) = some n ↔
    n = .dir ∧ ∃ name, s.known name ∧ c = quotePlus name
  files : ∀ c f n, fs.at? (locate root ++ [c, f]) = some n ↔
    ∃ name v d, s.doc name v = some d ∧ c = quotePlus name ∧ f = versionFile v ∧ n = .file d
  ordinary : ∀ name, s.known name → Spec.OrdinaryName name
  has_known : ∀ name v, s.Has name v → s.known name

namespace Rep

variable {root : Str} {fs : FS} {s : Spec.Store}

theorem dir_at (h : Rep root fs s) (name : Str) :
    fs.at? (locate root ++ [quotePlus name]) = some .dir ↔ s.known name := by
  rw [h.dirs]
  constructor
  · rintro ⟨_, m, hm, e⟩; rw [quotePlus_injective e]; exact hm
  · intro hk; exact ⟨rfl, name, hk, rfl⟩

theorem dir_none (h : Rep root fs s) (name : Str) (hk : ¬ s.known name) :
    fs.at? (locate root ++ [quotePlus name]) = none := by
  cases hat : fs.at? (locate root ++ [quotePlus name]) with
  | none => rfl
  | some n =>
    obtain ⟨_, m, hm, e⟩ := (h.dirs _ _).mp hat
    rw [quotePlus_injective e] at hk
    exact absurd hm hk

theorem file_at (h : Rep root fs s) (name : Str) (v : Int) :
    fs.at? (locate root ++ [quotePlus name, versionFile v]) = (s.doc name v).map .file := by
  cases hd : s.doc name v with
  | some d => exact (h.files _ _ _).mpr ⟨name, v, d, hd, rfl, rfl, rfl⟩
  | none =>
    cases hat : fs.at? (locate root ++ [quotePlus name, versionFile v]) with
    | none => rfl
    | some n =>
      obtain ⟨m, w, d, hm, e1, e2, _⟩ := (h.files _ _ _).mp hat
      rw [← quotePlus_injective e1, ← versionFile_injective e2, hd] at hm
      cases hm

theorem parseVersions_ok (l : List Str) (hl : ∀ f ∈ l, ∃ v, f = versionFile v) :
    ∃ vs, parseVersions l = .ok vs ∧ l = vs.map versionFile := by
  induction l with
  | nil => exact ⟨[], rfl, rfl⟩
  | cons f l ih =>
    obtain ⟨vs, h1, h2⟩ := ih (fun f hf => hl f (List.mem_cons_of_mem _ hf))
    obtain ⟨v, rfl⟩ := hl f (by simp)
    refine ⟨v :: vs, ?_, by rw [h2]; rfl⟩
    rw [parseVersions, stem_versionFile]
    simp only [h1]

theorem nodup_of_map {α β : Type} (f : α → β) : ∀ {l : List α}, (l.map f).Nodup → l.Nodup
  | [], _ => .nil
  | a :: l, h => by
    rw [List.map_cons, List.nodup_cons] at h
    rw [List.nodup_cons]
    exact ⟨fun hm => h.1 (List.mem_map_of_mem hm), nodup_of_map f h.2⟩

theorem versions_unknown (h : Rep root fs s) {name : Str} (ho : Spec.OrdinaryName name)
    (hk : ¬ s.known name) : versions root fs name = .ok none := by
  unfold versions FS.ls
  rw [locate_dirPath root ho, h.dir_none name hk]
  simp only
  rw [FS.missing_below h.tree h.root_dir _ (h.dir_none name hk)]

theorem versions_known (h : Rep root fs s) {name : Str} (ho : Spec.OrdinaryName name)
    (hk : s.known name) : ∃ l, versions root fs name = .ok (some l) ∧ Spec.Ascending l ∧
      ∀ v, v ∈ l ↔ s.Has name v := by
  unfold versions FS.ls
  rw [locate_dirPath root ho, (h.dir_at name).mpr hk]
  have key : ∀ f, f ∈ fs.names (locate root ++ [quotePlus name]) ↔
      ∃ v, s.Has name v ∧ f = versionFile v := by
    intro f
    rw [FS.mem_names]
    have e : locate root ++ [quotePlus name] ++ [f] = locate root ++ [quotePlus name, f] := by simp
    rw [e]
    constructor
    · intro hn
      obtain ⟨n, hn⟩ := Option.ne_none_iff_exists'.mp hn
      obtain ⟨m, v, d, hm, e1, e2, _⟩ := (h.files _ _ _).mp hn
      rw [← quotePlus_injective e1] at hm
      exact ⟨v, by rw [Spec.Store.Has, hm]; simp, e2⟩
    · rintro ⟨v, hv, rfl⟩
      rw [h.file_at]
      intro hh
      rw [Option.map_eq_none_iff] at hh
      exact hv hh
  obtain ⟨vs, h1, h2⟩ := parseVersions_ok (fs.names (locate root ++ [quotePlus name]))
    (fun f hf => by obtain ⟨v, _, e⟩ := (key f).mp hf; exact ⟨v, e⟩)
  simp only [h1]
  refine ⟨_, rfl, ?_, ?_⟩
  · apply sortBy_ascending
    have := FS.names_nodup h.nodup (locate root ++ [quotePlus name])
    rw [h2] at this
    exact nodup_of_map _ this
  · intro v
    rw [mem_sortBy]
    constructor
    · intro hv
      have : versionFile v ∈ fs.names (locate root ++ [quotePlus name]) := by
        rw [h2]; exact List.mem_map_of_mem hv
      obtain ⟨w, hw, e⟩ := (key _).mp this
      rw [versionFile_injective e]; exact hw
    · intro hv
      have : versionFile v ∈ fs.names (locate root ++ [quotePlus name]) := (key _).mpr ⟨v, hv, rfl⟩
      rw [h2] at this
      obtain ⟨w, hw, e⟩ := List.mem_map.mp this
      rw [← versionFile_injective e]; exact hw

theorem latest_spec (h : Rep root fs s) {name : Str} (ho : Spec.OrdinaryName name) :
    ((∀ v, ¬ s.Has name v) ∧ latest root fs name = .ok none) ∨
      ∃ v, s.IsLatest name v ∧ latest root fs name = .ok (some v) := by
  by_cases hk : s.known name
  · obtain ⟨l, h1, _, h3⟩ := h.versions_known ho hk
    cases l with
    | nil =>
      left
      refine ⟨fun v hv => by simpa using (h3 v).mpr hv, ?_⟩
      rw [latest, h1]
    | cons x l =>
      right
      obtain ⟨h4, h5⟩ := maxInt_spec x l
      refine ⟨maxInt x l, ⟨(h3 _).mp h4, fun w hw => h5 w ((h3 w).mpr hw)⟩, ?_⟩
      rw [latest, h1]
  · left
    refine ⟨fun v hv => hk (h.has_known _ _ hv), ?_⟩
    rw [latest, h.versions_unknown ho hk]

theorem getVersion_spec (h : Rep root fs s) {name : Str} (ho : Spec.OrdinaryName name) (v : Int) :
    getVersion root fs name v = match s.doc name v with
      | none => .ok none
      | some c => Spec.Store.reading c v := by
  unfold getVersion FS.read
  rw [locate_filePath root ho, h.file_at]
  cases hd : s.doc name v with
  | none =>
    have hm : fs.missing [] (locate root ++ [quotePlus name, versionFile v]) = .fileNotFound := by
      by_cases hk : s.known name
      · have e : locate root ++ [quotePlus name, versionFile v] =
          (locate root ++ [quotePlus name]) ++ versionFile v :: [] := by simp
        rw [e]
        apply FS.missing_below h.tree ((h.dir_at name).mpr hk)
        rw [← e, h.file_at, hd]; rfl
      · exact FS.missing_below h.tree h.root_dir _ (h.dir_none name hk) _
    simp only [Option.map_none, hm]
  | some c => cases c <;> rfl

theorem unquoteAll_ok (l : List Str) (hl : ∀ f ∈ l, ∃ n, f = quotePlus n) :
    ∃ ns, unquoteAll l = .ok ns ∧ l = ns.map quotePlus := by
  induction l with
  | nil => exact ⟨[], rfl, rfl⟩
  | cons f l ih =>
    obtain ⟨ns, h1, h2⟩ := ih (fun f hf => hl f (List.mem_cons_of_mem _ hf))
    obtain ⟨n, rfl⟩ := hl f (by simp)
    refine ⟨n :: ns, ?_, by rw [h2]; rfl⟩
    rw [unquoteAll, unquotePlus_quotePlus]
    simp only [h1]

theorem lsNames_spec (h : Rep root fs s) :
    ∃ l, lsNames root fs = .ok l ∧ Spec.AscendingNames l ∧ ∀ n, n ∈ l ↔ s.known n := by
  unfold lsNames FS.ls
  rw [h.root_dir]
  have key : ∀ f, f ∈ fs.names (locate root) ↔ ∃ n, s.known n ∧ f = quotePlus n := by
    intro f
    rw [FS.mem_names]
    constructor
    · intro hn
      obtain ⟨n, hn⟩ := Option.ne_none_iff_exists'.mp hn
      exact ((h.dirs _ _).mp hn).2
    · rintro ⟨n, hn, rfl⟩
      rw [(h.dir_at n).mpr hn]; simp
  obtain ⟨ns, h1, h2⟩ := unquoteAll_ok (fs.names (locate root))
    (fun f hf => by obtain ⟨n, _, e⟩ := (key f).mp hf; exact ⟨n, e⟩)
  simp only [h1]
  refine ⟨_, rfl, ?_, ?_⟩
  · apply sortBy_ascendingNames
    have := FS.names_nodup h.nodup (locate root)
    rw [h2] at this
    exact nodup_of_map _ this
  · intro n
    rw [mem_sortBy]
    constructor
    · intro hv
      have : quotePlus n ∈ fs.names (locate root) := by rw [h2]; exact List.mem_map_of_mem hv
      obtain ⟨w, hw, e⟩ := (key _).mp this
      rw [quotePlus_injective e]; exact hw
    · intro hv
      have : quotePlus n ∈ fs.names (locate root) := (key _).mpr ⟨n, hv, rfl⟩
      rw [h2] at this
      obtain ⟨w, hw, e⟩ := List.mem_map.mp this
      rw [← quotePlus_injective e]; exact hw

theorem nextVersion_spec (h : Rep root fs s) {name : Str} (ho : Spec.OrdinaryName name)
    (given : Option Int) : ∃ v, nextVersion root fs name given = .ok v ∧ s.IsNext name given v := by
  cases given with
  | some w => exact ⟨w, rfl, rfl⟩
  | none =>
    rcases h.latest_spec ho with ⟨h1, h2⟩ | ⟨l, h1, h2⟩
    · refine ⟨1, ?_, .inr ⟨h1, rfl⟩⟩
      rw [nextVersion]; simp only [h2]
    · refine ⟨l + 1, ?_, .inl ⟨l, h1, rfl⟩⟩
      rw [nextVersion]; simp only [h2]

/-- Making the directory of a name. -/
theorem mkdirs_spec (h : Rep root fs s) {name : Str} (ho : Spec.OrdinaryName name) :
    ∃ made, fs.mkdirs (dirPath root name) = .ok made ∧ Rep root made (s.learn name) := by
  unfold FS.mkdirs
  rw [locate_dirPath root ho, FS.makeDirs_one h.tree h.root_dir]
  by_cases hk : s.known name
  · rw [(h.dir_at name).mpr hk]
    refine ⟨fs, rfl, ?_⟩
    have hl : s.learn name = s := by
      unfold Spec.Store.learn
      have : (fun n => s.known n ∨ n = name) = s.known := by
        funext n
        apply propext
        constructor
        · rintro (h | rfl) <;> assumption
        · exact Or.inl
      rw [this]
    rw [hl]; exact h
  · rw [h.dir_none name hk]
    refine ⟨_, rfl, ?_⟩
    have hne : locate root ++ [quotePlus name] ≠ [] := by simp
    constructor
    · exact FS.write_nodup h.nodup _ _
    · exact h.tree.write h.root_dir (.inl rfl)
    · rw [FS.at?_write hne, if_neg (by intro e; simpa using congrArg List.length e)]
      exact h.root_dir
    · intro c n
      rw [FS.at?_write hne]
      by_cases hc : c = quotePlus name
      · subst hc
        rw [if_pos rfl]
        constructor
        · intro e; cases e; exact ⟨rfl, name, .inr rfl, rfl⟩
        · rintro ⟨rfl, _⟩; rfl
      · rw [if_neg (by simpa using hc), h.dirs]
        constructor
        · rintro ⟨e, m, hm, e2⟩; exact ⟨e, m, .inl hm, e2⟩
        · rintro ⟨e, m, hm | hm, e2⟩
          · exact ⟨e, m, hm, e2⟩
          · subst hm; exact absurd e2 hc
    · intro c f n
      rw [FS.at?_write hne, if_neg (by intro e; simpa using congrArg List.length e)]
      exact h.files c f n
    · rintro m (hm | rfl)
      · exact h.ordinary m hm
      · exact ho
    · intro m v hv
      exact .inl (h.has_known m v hv)

/-- Writing a file of a known name. -/
theorem save_spec (h : Rep root fs s) {name : Str} (hk : s.known name) (v : Int) (c : Content) :
    ∃ fs', fs.save (filePath root name v) c = .ok fs' ∧ Rep root fs' (s.store name v c) := by
  have ho := h.ordinary name hk
  refine ⟨fs.write (locate root ++ [quotePlus name, versionFile v]) (.file c), ?_, ?_⟩
  · unfold FS.save
    rw [locate_filePath root ho, h.file_at]
    cases s.doc name v with
    | some d => rfl
    | none =>
      have : (locate root ++ [quotePlus name, versionFile v]).dropLast =
          locate root ++ [quotePlus name] := by
        have e : locate root ++ [quotePlus name, versionFile v] =
          (locate root ++ [quotePlus name]) ++ [versionFile v] := by simp
        rw [e, List.dropLast_concat]
      simp only [Option.map_none]
      rw [this, (h.dir_at name).mpr hk]
  · have hne : locate root ++ [quotePlus name, versionFile v] ≠ [] := by simp
    have e : locate root ++ [quotePlus name, versionFile v] =
          (locate root ++ [quotePlus name]) ++ [versionFile v] := by simp
    constructor
    · exact FS.write_nodup h.nodup _ _
    · rw [e]
      refine h.tree.write ((h.dir_at name).mpr hk) (.inr ?_)
      rw [← e, h.file_at]
      cases s.doc name v <;> simp
    · rw [FS.at?_write hne, if_neg (by intro e; simpa using congrArg List.length e)]
      exact h.root_dir
    · intro d n
      rw [FS.at?_write hne, if_neg (by intro e; simpa using congrArg List.length e), h.dirs]
      constructor
      · rintro ⟨e1, m, hm, e2⟩; exact ⟨e1, m, .inl hm, e2⟩
      · rintro ⟨e1, m, hm | hm, e2⟩
        · exact ⟨e1, m, hm, e2⟩
        · subst hm; exact ⟨e1, m, hk, e2⟩
    · intro d f n
      rw [FS.at?_write hne]
      by_cases hc : d = quotePlus name ∧ f = versionFile v
      · obtain ⟨rfl, rfl⟩ := hc
        rw [if_pos rfl]
        constructor
        · intro e; cases e
          exact ⟨name, v, c, by simp [Spec.Store.store], rfl, rfl, rfl⟩
        · rintro ⟨m, w, d, hm, e1, e2, rfl⟩
          have e1 := quotePlus_injective e1
          have e2 := versionFile_injective e2
          subst e1; subst e2
          simp only [Spec.Store.store, and_self, if_true] at hm
          rw [Option.some.inj hm]
      · rw [if_neg (by simpa using hc), h.files]
        constructor
        · rintro ⟨m, w, d', hm, e1, e2, e3⟩
          refine ⟨m, w, d', ?_, e1, e2, e3⟩
          simp only [Spec.Store.store]
          rw [if_neg]
          · exact hm
          · rintro ⟨rfl, rfl⟩; exact hc ⟨e1, e2⟩
        · rintro ⟨m, w, d', hm, e1, e2, e3⟩
          refine ⟨m, w, d', ?_, e1, e2, e3⟩
          simp only [Spec.Store.store] at hm
          rw [if_neg] at hm
          · exact hm
          · rintro ⟨rfl, rfl⟩; exact hc ⟨e1, e2⟩
    · rintro m (hm | rfl)
      · exact h.ordinary m hm
      · exact ho
    · intro m w hw
      simp only [Spec.Store.Has, Spec.Store.store] at hw
      split at hw
      · rename_i he; exact .inr he.1
      · exact .inl (h.has_known m w hw)

theorem store_store (s : Spec.Store) (name : Str) (v : Int) (c c' : Content) :
    ((s.learn name).store name v c).store name v c' = s.store name v c' := by
  unfold Spec.Store.store Spec.Store.learn
  congr 1
  · funext n
    apply propext
    constructor
    · rintro (((h | h) | h) | h) <;> simp [h]
    · rintro (h | h) <;> simp [h]
  · funext n w
    split <;> simp_all

theorem learn_store (s : Spec.Store) (name : Str) (v : Int) (c : Content) :
    (s.learn name).store name v c = s.store name v c := by
  unfold Spec.Store.store Spec.Store.learn
  congr 1
  funext n
  apply propext
  constructor
  · rintro ((h | h) | h) <;> simp [h]
  · rintro (h | h) <;> simp [h]

/-- Storing a document, state by state. -/
theorem writeFile_spec (h : Rep root fs s) {name : Str} (ho : Spec.OrdinaryName name) (v : Int)
    (d : PyVal) : ∃ made opened done, writeFile root fs name v d = (.ok v, [fs, made, opened, done]) ∧
      Rep root made (s.learn name) ∧ Rep root opened (s.store name v .truncated) ∧
      Rep root done (s.store name v (.complete d)) := by
  obtain ⟨made, h1, r1⟩ := h.mkdirs_spec ho
  obtain ⟨opened, h2, r2⟩ := r1.save_spec (name := name) (.inr rfl) v .truncated
  obtain ⟨done, h3, r3⟩ := r2.save_spec (name := name) (.inr rfl) v (.complete d)
  rw [store_store] at r3
  rw [learn_store] at r2
  refine ⟨made, opened, done, ?_, r1, r2, r3⟩
  unfold writeFile
  simp only [h1, h2, h3]

end Rep
end Recap
