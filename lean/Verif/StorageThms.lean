import Verif.StorageLemmas

/-! # Properties of the schema storage: C25-C32 -/

set_option autoImplicit false

namespace Recap

open Spec (Call Answer OrdinaryName OrdinaryCall)

/-! ## Running calls -/

/-- One call of the storage API: its answer and the file system afterwards. -/
def call (root : Str) (fs : FS) : Call → Answer × FS
  | .put name t version => (.put (put root fs name t version).1, (put root fs name t version).2)
  | .get name version => (.get (get root fs name version), fs)
  | .versions name => (.versions (versions root fs name), fs)
  | .latest name => (.latest (latest root fs name), fs)
  | .ls => (.ls (lsNames root fs), fs)
  | .crash name t version step =>
    (.crash, ((putStates root fs name t version).2[step]?).getD (put root fs name t version).2)

/-- A sequence of calls. -/
def calls (root : Str) (fs : FS) : List Call → List Answer × FS
  | [] => ([], fs)
  | c :: cs =>
    let r := call root fs c
    let rs := calls root r.2 cs
    (r.1 :: rs.1, rs.2)

/-- A file system in which paths are unique and everything is in a directory, with nothing at
or below `root`, after a `RegistryStorage` for `root` has been made. -/
def NewStorage (root : Str) (fs : FS) : Prop :=
  ∃ before : FS, (before.map (·.1)).Nodup ∧ before.Tree ∧
    (∀ c, before.at? (locate root ++ [c]) = none) ∧ openStorage root before = .ok fs

theorem makeDirs_new : ∀ (ps : List Str) (fs fs' : FS) (acc : Place),
    (fs.map (·.1)).Nodup → fs.Tree → fs.at? acc = some .dir → fs.makeDirs acc ps = .ok fs' →
    (fs'.map (·.1)).Nodup ∧ fs'.Tree ∧ fs'.at? (acc ++ ps) = some .dir ∧
      ∀ q, q ≠ [] → fs'.at? (acc ++ ps ++ q) = fs.at? (acc ++ ps ++ q) := by
  intro ps
  induction ps with
  | nil =>
    intro fs fs' acc h1 h2 h3 h
    cases h
    exact ⟨h1, h2, by simpa using h3, fun _ _ => rfl⟩
  | cons p ps ih =>
    intro fs fs' acc h1 h2 h3 h
    have e : acc ++ p :: ps = (acc ++ [p]) ++ ps := by simp
    rw [e]
    rw [FS.makeDirs] at h
    cases hat : fs.at? (acc ++ [p]) with
    | some n =>
      rw [hat] at h
      cases n with
      | dir => exact ih fs fs' _ h1 h2 hat h
      | file c => cases h
    | none =>
      rw [hat] at h
      have hne : acc ++ [p] ≠ [] := by simp
      obtain ⟨r1, r2, r3, r4⟩ := ih _ fs' _ (FS.write_nodup h1 _ _) (h2.write h3 (.inl rfl))
        (by rw [FS.at?_write hne, if_pos rfl]) h
      refine ⟨r1, r2, r3, ?_⟩
      intro q hq
      rw [r4 q hq, FS.at?_write hne, if_neg]
      intro hh
      have := congrArg List.length hh
      have hl : q.length ≠ 0 := by simpa using hq
      simp only [List.length_append, List.length_cons, List.length_nil] at this
      omega

theorem NewStorage.rep {root : Str} {fs : FS} (h : NewStorage root fs) : Rep root fs .empty := by
  obtain ⟨before, h1, h2, h3, h4⟩ := h
  obtain ⟨r1, r2, r3, r4⟩ := makeDirs_new _ _ _ [] h1 h2 (FS.at?_nil _) h4
  rw [List.nil_append] at r3 r4
  constructor
  · exact r1
  · exact r2
  · exact r3
  · intro c n
    rw [r4 [c] (by simp), h3 c]
    simp [Spec.Store.empty]
  · intro c f n
    rw [r4 [c, f] (by simp)]
    have e : locate root ++ [c, f] = (locate root ++ [c]) ++ [f] := by simp
    constructor
    · intro hn
      rw [e] at hn
      have := h2 _ _ _ hn
      rw [h3 c] at this
      cases this
    · rintro ⟨_, _, _, h, _⟩; simp [Spec.Store.empty] at h
  · intro _ h; exact h.elim
  · intro _ _ h; exact absurd rfl h

namespace Rep

variable {root : Str} {fs : FS} {s : Spec.Store}

theorem putStates_spec (h : Rep root fs s) {name : Str} (ho : OrdinaryName name) (t : RType)
    (version : Option Int) :
    match toDict true true t with
    | .error e => putStates root fs name t version = (.error (.py e), [fs])
    | .ok d => ∃ v made opened done, s.IsNext name version v ∧
      putStates root fs name t version = (.ok v, [fs, made, opened, done]) ∧
      Rep root made (s.learn name) ∧ Rep root opened (s.store name v .truncated) ∧
      Rep root done (s.store name v (.complete d)) := by
  obtain ⟨v, hv, hn⟩ := h.nextVersion_spec ho version
  unfold putStates
  rw [hv]
  cases hd : toDict true true t with
  | error e => simp only
  | ok d =>
    obtain ⟨made, opened, done, h1, h2⟩ := h.writeFile_spec ho v d
    exact ⟨v, made, opened, done, hn, h1, h2⟩

theorem call_spec (h : Rep root fs s) (c : Call) (ho : OrdinaryCall c) :
    ∃ s', Spec.Allowed s c (call root fs c).1 s' ∧ Rep root (call root fs c).2 s' := by
  cases c with
  | put name t version =>
    have hp := h.putStates_spec ho t version
    simp only [call, put, Spec.Allowed]
    split at hp
    · rename_i e he
      rw [he]
      simp only [hp]
      exact ⟨s, by simp, h⟩
    · rename_i d hd
      obtain ⟨v, made, opened, done, h1, h2, _, _, h5⟩ := hp
      rw [hd]
      simp only [h2]
      exact ⟨_, ⟨v, h1, rfl, rfl⟩, h5⟩
  | crash name t version step =>
    have hp := h.putStates_spec ho t version
    simp only [call, put, Spec.Allowed]
    split at hp
    · rename_i e he
      rw [he]
      simp only [hp]
      refine ⟨s, rfl, ?_⟩
      cases step <;> exact h
    · rename_i d hd
      obtain ⟨v, made, opened, done, h1, h2, h3, h4, h5⟩ := hp
      rw [hd]
      simp only [h2]
      match step with
      | 0 => exact ⟨s, ⟨v, h1, .inl rfl⟩, h⟩
      | 1 => exact ⟨_, ⟨v, h1, .inr (.inl rfl)⟩, h3⟩
      | 2 => exact ⟨_, ⟨v, h1, .inr (.inr (.inl rfl))⟩, h4⟩
      | 3 => exact ⟨_, ⟨v, h1, .inr (.inr (.inr rfl))⟩, h5⟩
      | n + 4 => exact ⟨_, ⟨v, h1, .inr (.inr (.inr rfl))⟩, h5⟩
  | get name version =>
    refine ⟨s, ?_, h⟩
    cases version with
    | some v =>
      refine ⟨rfl, ?_⟩
      rw [get, h.getVersion_spec ho]
      cases s.doc name v <;> rfl
    | none =>
      refine ⟨rfl, ?_⟩
      rw [get]
      rcases h.latest_spec ho with ⟨h1, h2⟩ | ⟨l, h1, h2⟩
      · left; exact ⟨h1, by simp only [h2]⟩
      · right
        obtain ⟨c, hc⟩ := Option.ne_none_iff_exists'.mp h1.1
        refine ⟨l, c, h1, hc, ?_⟩
        simp only [h2, h.getVersion_spec ho, hc]
  | versions name =>
    refine ⟨s, ⟨rfl, ?_⟩, h⟩
    by_cases hk : s.known name
    · right
      obtain ⟨l, h1, h2, h3⟩ := h.versions_known ho hk
      exact ⟨hk, l, h1, h2, h3⟩
    · left
      exact ⟨hk, h.versions_unknown ho hk⟩
  | latest name => exact ⟨s, ⟨rfl, h.latest_spec ho⟩, h⟩
  | ls => exact ⟨s, ⟨rfl, h.lsNames_spec⟩, h⟩

theorem calls_spec : ∀ (cs : List Call) {fs : FS} {s : Spec.Store}, Rep root fs s →
    (∀ c ∈ cs, OrdinaryCall c) →
    ∃ s', Spec.AllowedAll s cs (calls root fs cs).1 s' ∧ Rep root (calls root fs cs).2 s'
  | [], _, s, h, _ => ⟨s, rfl, h⟩
  | c :: cs, _, _, h, ho => by
    obtain ⟨s1, h1, r1⟩ := h.call_spec c (ho c (by simp))
    obtain ⟨s2, h2, r2⟩ := calls_spec cs r1 (fun c hc => ho c (List.mem_cons_of_mem _ hc))
    exact ⟨s2, ⟨s1, h1, h2⟩, r2⟩

end Rep

/-! ## C25: the storage refines a map -/

/-- Every sequence of calls, with crashes during `put` anywhere in it, on a new storage is
answered as the abstract store allows. -/
theorem C25_storage_refines_map (root : Str) (fs : FS) (hfs : NewStorage root fs) (cs : List Call)
    (ho : ∀ c ∈ cs, OrdinaryCall c) :
    ∃ s', Spec.AllowedAll .empty cs (calls root fs cs).1 s' := by
  obtain ⟨s', h, _⟩ := Rep.calls_spec cs hfs.rep ho
  exact ⟨s', h⟩

/-! ## Reachable storages -/

/-- The file systems that calls with ordinary names and crashes lead to. -/
def Reachable (root : Str) (fs : FS) : Prop :=
  ∃ fs0 cs, NewStorage root fs0 ∧ (∀ c ∈ cs, OrdinaryCall c) ∧ fs = (calls root fs0 cs).2

theorem Reachable.rep {root : Str} {fs : FS} (h : Reachable root fs) : ∃ s, Rep root fs s := by
  obtain ⟨fs0, cs, h0, ho, rfl⟩ := h
  obtain ⟨s', _, h⟩ := Rep.calls_spec cs h0.rep ho
  exact ⟨s', h⟩

theorem get_some_none {root : Str} {fs : FS} {s : Spec.Store} (h : Rep root fs s) {name : Str}
    (ho : OrdinaryName name) (v : Int) : get root fs name (some v) ≠ .ok none ↔ s.Has name v := by
  rw [get, h.getVersion_spec ho, Spec.Store.Has]
  cases s.doc name v with
  | none => simp
  | some c =>
    simp only [ne_eq, reduceCtorEq, not_false_iff, iff_true]
    cases c with
    | truncated => simp [Spec.Store.reading]
    | complete d =>
      simp only [Spec.Store.reading]
      cases parse d <;> simp

/-! ## C26: fresh versions -/

/-- `put` without a version stores under one more than the latest version (1 for a name without
versions), which did not exist, and changes no other version of any name. -/
theorem C26_put_is_fresh (root : Str) (fs : FS) (hfs : Reachable root fs) (name : Str)
    (ho : OrdinaryName name) (t : RType) (v : Int)
    (hput : (put root fs name t none).1 = .ok v) :
    (latest root fs name = .ok none ∧ v = 1 ∨
      ∃ l, latest root fs name = .ok (some l) ∧ v = l + 1) ∧
    get root fs name (some v) = .ok none ∧
    (∀ vs, versions root fs name = .ok (some vs) → ∀ w ∈ vs, w < v) ∧
    latest root (put root fs name t none).2 name = .ok (some v) ∧
    ∀ name' v', OrdinaryName name' → (name', v') ≠ (name, v) →
      get root (put root fs name t none).2 name' (some v') = get root fs name' (some v') := by
  obtain ⟨s, h⟩ := hfs.rep
  have hp := h.putStates_spec ho t none
  unfold put at hput ⊢
  split at hp
  · rw [hp] at hput; cases hput
  · rename_i d hd
    obtain ⟨w, made, opened, done, h1, h2, _, _, h5⟩ := hp
    rw [h2] at hput ⊢
    cases hput
    have hlt : ∀ w, s.Has name w → w < v := by
      intro w hw
      rcases h1 with ⟨l, hl, rfl⟩ | ⟨hn, _⟩
      · have := hl.2 w hw; omega
      · exact absurd hw (hn w)
    have hno : ¬ s.Has name v := fun hh => Int.lt_irrefl _ (hlt v hh)
    refine ⟨?_, ?_, ?_, ?_, ?_⟩
    · rcases h.latest_spec ho with ⟨g1, g2⟩ | ⟨l, g1, g2⟩
      · left
        refine ⟨g2, ?_⟩
        rcases h1 with ⟨l, hl, _⟩ | ⟨_, hv⟩
        · exact absurd hl.1 (g1 l)
        · exact hv
      · right
        refine ⟨l, g2, ?_⟩
        rcases h1 with ⟨l', hl, hv⟩ | ⟨hn, _⟩
        · have := hl.2 l g1.1
          have := g1.2 l' hl.1
          omega
        · exact absurd g1.1 (hn l)
    · exact Classical.byContradiction (fun hh => hno ((get_some_none h ho v).mp hh))
    · intro vs hvs w hw
      by_cases hk : s.known name
      · obtain ⟨l, g1, _, g3⟩ := h.versions_known ho hk
        rw [hvs] at g1
        cases g1
        exact hlt w ((g3 w).mp hw)
      · rw [h.versions_unknown ho hk] at hvs; cases hvs
    · have hhas : (s.store name v (.complete d)).Has name v := by
        simp [Spec.Store.Has, Spec.Store.store]
      rcases h5.latest_spec ho with ⟨g1, _⟩ | ⟨l, g1, g2⟩
      · exact absurd hhas (g1 v)
      · have hle := g1.2 v hhas
        have : l ≤ v := by
          have hl := g1.1
          simp only [Spec.Store.Has, Spec.Store.store, true_and] at hl
          split at hl
          · omega
          · exact Int.le_of_lt (hlt l hl)
        have : l = v := by omega
        rw [← this]; exact g2
    · intro name' v' ho' hne
      simp only [List.getLastD, List.getLast]
      rw [get, h5.getVersion_spec ho', get, h.getVersion_spec ho']
      have : (s.store name v (.complete d)).doc name' v' = s.doc name' v' := by
        simp only [Spec.Store.store]
        rw [if_neg]
        rintro ⟨rfl, rfl⟩; exact hne rfl
      rw [this]

/-! ## C27: versions and latest -/

/-- `versions` is strictly increasing and lists exactly the versions that `get` finds; `latest` is
the highest of them, and `None` if there are none. -/
theorem C27_versions_and_latest (root : Str) (fs : FS) (hfs : Reachable root fs) (name : Str)
    (ho : OrdinaryName name) :
    (versions root fs name = .ok none ∧ latest root fs name = .ok none ∧
      ∀ v, get root fs name (some v) = .ok none) ∨
    ∃ vs, versions root fs name = .ok (some vs) ∧ Spec.Ascending vs ∧
      (∀ v, v ∈ vs ↔ get root fs name (some v) ≠ .ok none) ∧
      (vs = [] ∧ latest root fs name = .ok none ∨
        ∃ m ∈ vs, latest root fs name = .ok (some m) ∧ ∀ v ∈ vs, v ≤ m) := by
  obtain ⟨s, h⟩ := hfs.rep
  by_cases hk : s.known name
  · right
    obtain ⟨l, h1, h2, h3⟩ := h.versions_known ho hk
    refine ⟨l, h1, h2, ?_, ?_⟩
    · intro v; rw [h3, get_some_none h ho]
    · rcases h.latest_spec ho with ⟨g1, g2⟩ | ⟨m, g1, g2⟩
      · left
        refine ⟨?_, g2⟩
        cases l with
        | nil => rfl
        | cons x l => exact absurd ((h3 x).mp (by simp)) (g1 x)
      · right
        exact ⟨m, (h3 m).mpr g1.1, g2, fun v hv => g1.2 v ((h3 v).mp hv)⟩
  · left
    have hno : ∀ v, ¬ s.Has name v := fun v hv => hk (h.has_known _ _ hv)
    refine ⟨h.versions_unknown ho hk, ?_, ?_⟩
    · rw [latest, h.versions_unknown ho hk]
    · intro v
      exact Classical.byContradiction (fun hh => hno v ((get_some_none h ho v).mp hh))

/-! ## C28: directory names -/

/-- The directory name of a schema name has no slash, gives the name back when unquoted, and is
shared with no other name. -/
theorem C28_names_survive (name : Str) :
    '/' ∉ quotePlus name ∧ unquotePlus (quotePlus name) = some name ∧
      ∀ other, quotePlus other = quotePlus name → other = name :=
  ⟨quotePlus_no_slash name, unquotePlus_quotePlus name, fun _ h => quotePlus_injective h⟩

/-! ## C30: ls -/

/-- Storing a list of types one after another. -/
def putAll (root : Str) (fs : FS) : List (Str × RType × Option Int) → FS
  | [] => fs
  | (name, t, version) :: ps => putAll root (put root fs name t version).2 ps

theorem putAll_known : ∀ (ps : List (Str × RType × Option Int)) {root : Str} {fs : FS} {s : Spec.Store},
    Rep root fs s → (∀ p ∈ ps, OrdinaryName p.1) →
    ∃ s', Rep root (putAll root fs ps) s' ∧ ∀ n, s'.known n ↔
      s.known n ∨ ∃ p ∈ ps, p.1 = n ∧ ∃ d, toDict true true p.2.1 = .ok d
  | [], _, _, s, h, _ => ⟨s, h, by simp⟩
  | (name, t, version) :: ps, root, fs, s, h, ho => by
    have hp := h.putStates_spec (ho (name, t, version) (by simp)) t version
    rw [putAll, put]
    have ho' := fun p hp => ho p (List.mem_cons_of_mem _ hp)
    split at hp
    · rename_i e he
      rw [hp]
      obtain ⟨s', h1, h2⟩ := putAll_known ps h ho'
      refine ⟨s', h1, ?_⟩
      intro n
      rw [h2]
      simp [he]
    · rename_i d hd
      obtain ⟨v, made, opened, done, _, h2, _, _, h5⟩ := hp
      rw [h2]
      obtain ⟨s', g1, g2⟩ := putAll_known ps h5 ho'
      refine ⟨s', g1, ?_⟩
      intro n
      rw [g2]
      simp only [Spec.Store.store, List.mem_cons]
      constructor
      · rintro ((h | rfl) | ⟨p, hp, h⟩)
        · exact .inl h
        · exact .inr ⟨_, .inl rfl, rfl, d, hd⟩
        · exact .inr ⟨p, .inr hp, h⟩
      · rintro (h | ⟨p, rfl | hp, h⟩)
        · exact .inl (.inl h)
        · exact .inl (.inr h.1.symm)
        · exact .inr ⟨p, hp, h⟩

/-- After any `put`s on a new storage, `ls` lists in ascending order, each once, the names of
the types that could be written. -/
theorem C30_ls_sorted_and_complete (root : Str) (fs : FS) (hfs : NewStorage root fs)
    (ps : List (Str × RType × Option Int)) (ho : ∀ p ∈ ps, OrdinaryName p.1) :
    ∃ l, lsNames root (putAll root fs ps) = .ok l ∧ Spec.AscendingNames l ∧
      ∀ n, n ∈ l ↔ ∃ p ∈ ps, p.1 = n ∧ ∃ d, toDict true true p.2.1 = .ok d := by
  obtain ⟨s', h1, h2⟩ := putAll_known ps hfs.rep ho
  obtain ⟨l, h3, h4, h5⟩ := h1.lsNames_spec
  refine ⟨l, h3, h4, ?_⟩
  intro n
  rw [h5, h2]
  simp [Spec.Store.empty]

/-! ## C29: every schema stays in its own directory -/

/-- The full statement: whatever the name, `put` changes nothing outside the directory
`root/quote_plus(name)`. -/
def C29_statement : Prop :=
  ∀ (root : Str) (fs : FS) (name : Str) (t : RType) (version : Option Int) (p : Place),
    Reachable root fs → (put root fs name t version).2.at? p ≠ fs.at? p →
    locate root ++ [quotePlus name] <+: p

/-- The storage of the examples is in `/data`. -/
def sampleRoot : Str := "/data".toList
/-- A file system with an empty directory `/data`. -/
def sampleFs : FS := [(["data".toList], .dir)]
/-- The type `int32`. -/
def sampleInt : RType := .int (.int 32) (.bool true) {}
/-- What the storage reads back for it: it was written as the name of the built-in type. -/
def sampleRef : RType := .proxy none { alias := .str "int32" }

theorem sampleFs_new : NewStorage sampleRoot sampleFs := by
  refine ⟨[], by simp, ?_, ?_, by decide +kernel⟩
  · intro p c n h; rw [FS.at?_empty (by simp)] at h; cases h
  · intro c; rw [FS.at?_empty (by simp)]

theorem sampleFs_reachable (cs : List Call) (h : ∀ c ∈ cs, OrdinaryCall c) :
    Reachable sampleRoot (calls sampleRoot sampleFs cs).2 := ⟨sampleFs, cs, sampleFs_new, h, rfl⟩

/-- The name `..` makes `put` write a file next to the root directory, not in it. -/
theorem C29_parent_directory_refuted : ¬ C29_statement := by
  intro h
  have := h sampleRoot sampleFs "..".toList sampleInt (some 1) ["1.json".toList]
    (sampleFs_reachable [] (by simp)) (by decide +kernel)
  revert this
  decide +kernel

/-- The name `.` makes `put` write into the root directory itself: `ls` then lists a schema
`1.json` that was never stored. -/
example : lsNames sampleRoot (put sampleRoot sampleFs ".".toList sampleInt none).2 =
    .ok ["1.json".toList] := by decide +kernel

/-- The parts of a file system at or below a place. -/
def FS.below (p : Place) (fs : FS) : FS := fs.filter (fun e => p.isPrefixOf e.1)

theorem below_at? {p q : Place} (hp : p ≠ []) (hq : p <+: q) (fs : FS) :
    (fs.below p).at? q = fs.at? q := by
  have hqn : q ≠ [] := by
    rintro rfl; exact hp (List.prefix_nil.mp hq)
  induction fs with
  | nil => rfl
  | cons e rest ih =>
    obtain ⟨r, m⟩ := e
    unfold FS.below at ih ⊢
    rw [List.filter_cons]
    by_cases hr : p <+: r
    · rw [if_pos (List.isPrefixOf_iff_prefix.mpr hr), FS.at?_cons hqn, FS.at?_cons hqn, ih]
    · rw [if_neg (fun h => hr (List.isPrefixOf_iff_prefix.mp h)), FS.at?_cons hqn, ih, if_neg]
      rintro rfl; exact hr hq

theorem below_names (p : Place) (fs : FS) : (fs.below p).names p = fs.names p := by
  induction fs with
  | nil => rfl
  | cons e rest ih =>
    obtain ⟨r, m⟩ := e
    unfold FS.below at ih ⊢
    rw [List.filter_cons]
    by_cases hr : p <+: r
    · rw [if_pos (List.isPrefixOf_iff_prefix.mpr hr)]
      unfold FS.names at ih ⊢
      rw [List.filterMap_cons, List.filterMap_cons, ih]
    · rw [if_neg (fun h => hr (List.isPrefixOf_iff_prefix.mp h)), ih]
      unfold FS.names
      rw [List.filterMap_cons]
      cases hc : FS.nameIn p r with
      | none => rfl
      | some c =>
        rw [FS.nameIn_eq_some] at hc
        exact absurd ⟨[c], hc.symm⟩ hr

/-- What is missing: the names `''`, `.` and `..`.  For all other names, `put` changes nothing
outside the directory `root/quote_plus(name)`, at no moment while it runs, and `get`, `versions`
and `latest` depend on nothing outside of it, on any file system with the root directory. -/
theorem C29_own_directory_partial (root : Str) (name : Str) (ho : OrdinaryName name) :
    (∀ fs, Reachable root fs → ∀ t version, ∀ fs' ∈ (putStates root fs name t version).2, ∀ p,
      fs'.at? p ≠ fs.at? p → locate root ++ [quotePlus name] <+: p) ∧
    (∀ fs fs' : FS, fs.Tree → fs.at? (locate root) = some .dir → fs'.Tree →
        fs'.at? (locate root) = some .dir → fs.below (locate root ++ [quotePlus name]) =
        fs'.below (locate root ++ [quotePlus name]) →
      versions root fs name = versions root fs' name ∧ latest root fs name = latest root fs' name ∧
      ∀ version, get root fs name version = get root fs' name version) := by
  constructor
  · intro fs hfs t version fs' hmem p hne
    obtain ⟨s, h⟩ := hfs.rep
    apply Classical.byContradiction
    intro hpre
    apply hne
    have hw : ∀ (fs : FS) (q : Place) (n : Node), locate root ++ [quotePlus name] <+: q →
        (fs.write q n).at? p = fs.at? p := by
      intro fs q n hq
      rw [FS.at?_write (by rintro rfl; simpa using List.prefix_nil.mp hq), if_neg]
      rintro rfl; exact hpre hq
    have hmk : ∀ made, fs.mkdirs (dirPath root name) = .ok made → made.at? p = fs.at? p := by
      intro made hm
      rw [FS.mkdirs, locate_dirPath root ho, FS.makeDirs_one h.tree h.root_dir] at hm
      split at hm
      · cases hm; rfl
      · cases hm
      · cases hm; exact hw _ _ _ (List.prefix_refl _)
    have hsv : ∀ (fs1 fs2 : FS) v c, fs1.save (filePath root name v) c = .ok fs2 →
        fs2.at? p = fs1.at? p := by
      intro fs1 fs2 v c hs
      rw [FS.save, locate_filePath root ho] at hs
      have hpx : locate root ++ [quotePlus name] <+: locate root ++ [quotePlus name, versionFile v] :=
        ⟨[versionFile v], by simp⟩
      split at hs
      · cases hs
      · cases hs; exact hw _ _ _ hpx
      · split at hs
        · cases hs; exact hw _ _ _ hpx
        · cases hs
    unfold putStates at hmem
    split at hmem
    · simp only [List.mem_singleton] at hmem; rw [hmem]
    · split at hmem
      · simp only [List.mem_singleton] at hmem; rw [hmem]
      · unfold writeFile at hmem
        split at hmem
        · simp only [List.mem_singleton] at hmem; rw [hmem]
        · rename_i made hmade
          have e1 := hmk _ hmade
          split at hmem
          · simp only [List.mem_cons, List.not_mem_nil, or_false] at hmem
            rcases hmem with rfl | rfl
            · rfl
            · exact e1
          · rename_i opened hopened
            have e2 := (hsv _ _ _ _ hopened).trans e1
            split at hmem
            · simp only [List.mem_cons, List.not_mem_nil, or_false] at hmem
              rcases hmem with rfl | rfl | rfl
              · rfl
              · exact e1
              · exact e2
            · rename_i done hdone
              have e3 := (hsv _ _ _ _ hdone).trans e2
              simp only [List.mem_cons, List.not_mem_nil, or_false] at hmem
              rcases hmem with rfl | rfl | rfl | rfl
              · rfl
              · exact e1
              · exact e2
              · exact e3
  · intro fs fs' ht hr ht' hr' hb
    have hne : locate root ++ [quotePlus name] ≠ [] := by simp
    have hat : ∀ q, locate root ++ [quotePlus name] <+: q → fs.at? q = fs'.at? q := by
      intro q hq
      rw [← below_at? hne hq fs, ← below_at? hne hq fs', hb]
    have hv : versions root fs name = versions root fs' name := by
      unfold versions FS.ls
      rw [locate_dirPath root ho, hat _ (List.prefix_refl _), ← below_names _ fs, hb, below_names]
      cases hd : fs'.at? (locate root ++ [quotePlus name]) with
      | none =>
        simp only
        rw [FS.missing_below ht' hr' _ hd, FS.missing_below ht hr]
        rw [hat _ (List.prefix_refl _), hd]
      | some n => cases n <;> rfl
    have hl : latest root fs name = latest root fs' name := by
      unfold latest; rw [hv]
    have hg : ∀ v, getVersion root fs name v = getVersion root fs' name v := by
      intro v
      unfold getVersion FS.read
      have hpre : locate root ++ [quotePlus name] <+: locate root ++ [quotePlus name, versionFile v] :=
        ⟨[versionFile v], by simp⟩
      rw [locate_filePath root ho, hat _ hpre]
      cases hf : fs'.at? (locate root ++ [quotePlus name, versionFile v]) with
      | some n => cases n with
        | dir => rfl
        | file c => cases c <;> rfl
      | none =>
        simp only
        have hd0 := hat _ (List.prefix_refl _)
        have e : locate root ++ [quotePlus name, versionFile v] =
          (locate root ++ [quotePlus name]) ++ versionFile v :: [] := by simp
        cases hd : fs'.at? (locate root ++ [quotePlus name]) with
        | none =>
          rw [FS.missing_below ht' hr' _ hd, FS.missing_below ht hr _ (by rw [hd0, hd])]
        | some n =>
          cases n with
          | dir =>
            rw [e, FS.missing_below ht' hd _ (by rw [← hf, e]),
              FS.missing_below ht (by rw [hd0, hd]) _ (by rw [← e, hat _ hpre, hf])]
          | file c =>
            have hmiss : ∀ g : FS, g.Tree → g.at? (locate root) = some .dir →
                g.at? (locate root ++ [quotePlus name]) = some (.file c) →
                g.missing [] (locate root ++ [quotePlus name, versionFile v]) = .notADirectory := by
              intro g hg hgr hgd
              have : ∀ (ps : List Str) (acc : Place), g.at? (acc ++ ps) = some .dir →
                  g.at? (acc ++ ps ++ [quotePlus name]) = some (.file c) →
                  g.missing acc (ps ++ [quotePlus name, versionFile v]) = .notADirectory := by
                intro ps
                induction ps with
                | nil =>
                  intro acc _ h2
                  rw [List.append_nil] at h2
                  rw [List.nil_append, FS.missing, h2]
                | cons p ps ih =>
                  intro acc h1 h2
                  have e2 : acc ++ p :: ps = (acc ++ [p]) ++ ps := by simp
                  rw [e2] at h1 h2
                  rw [List.cons_append, FS.missing]
                  split
                  · rfl
                  · exact ih _ h1 h2
              exact this (locate root) [] hgr hgd
            rw [hmiss fs' ht' hr' hd, hmiss fs ht hr (by rw [hd0, hd])]
    refine ⟨hv, hl, ?_⟩
    intro version
    cases version with
    | some v => exact hg v
    | none =>
      unfold get
      simp only [hl, hg]

/-! ## C31: a crash loses nothing that was stored -/

/-- The full statement: whenever the process stops during a `put`, every version that could be read
before can be read with the same result. -/
def C31_statement : Prop :=
  ∀ (root : Str) (fs : FS), Reachable root fs → ∀ (name : Str), OrdinaryName name →
    ∀ (t : RType) (version : Option Int), ∀ fs' ∈ (putStates root fs name t version).2,
    ∀ (name' : Str) (v : Int), OrdinaryName name' →
      ∀ r, get root fs name' (some v) = .ok (some r) → get root fs' name' (some v) = .ok (some r)

/-- What is missing: `put` over a version that exists.  A `put` without a version, or with a version
that does not exist, loses nothing; a `put` over an existing version puts only that version at
risk. -/
theorem C31_crash_loses_nothing_partial (root : Str) (fs : FS) (hfs : Reachable root fs) (name : Str)
    (ho : OrdinaryName name) (t : RType) (version : Option Int)
    (fs' : FS) (hfs' : fs' ∈ (putStates root fs name t version).2) :
    ((version = none ∨ ∃ v, version = some v ∧ get root fs name (some v) = .ok none) →
      ∀ name' v, OrdinaryName name' → ∀ r, get root fs name' (some v) = .ok (some r) →
        get root fs' name' (some v) = .ok (some r)) ∧
    ∀ name' v, OrdinaryName name' → ¬ (name' = name ∧ version = some v) →
      ∀ r, get root fs name' (some v) = .ok (some r) → get root fs' name' (some v) = .ok (some r) := by
  obtain ⟨s, h⟩ := hfs.rep
  have hp := h.putStates_spec ho t version
  have key : ∃ w s', s.IsNext name version w ∧ Rep root fs' s' ∧
      ∀ n v, ¬ (n = name ∧ v = w) → s'.doc n v = s.doc n v := by
    obtain ⟨w0, hw0, hw⟩ := h.nextVersion_spec ho version
    split at hp
    · rw [hp] at hfs'
      simp only [List.mem_singleton] at hfs'
      subst hfs'
      exact ⟨w0, s, hw, h, fun _ _ _ => rfl⟩
    · obtain ⟨v, made, opened, done, h1, h2, h3, h4, h5⟩ := hp
      rw [h2] at hfs'
      simp only [List.mem_cons, List.not_mem_nil, or_false] at hfs'
      rcases hfs' with rfl | rfl | rfl | rfl
      · exact ⟨v, s, h1, h, fun _ _ _ => rfl⟩
      · exact ⟨v, _, h1, h3, fun _ _ _ => rfl⟩
      · exact ⟨v, _, h1, h4, fun _ _ hn => by simp only [Spec.Store.store]; rw [if_neg hn]⟩
      · exact ⟨v, _, h1, h5, fun _ _ hn => by simp only [Spec.Store.store]; rw [if_neg hn]⟩
  obtain ⟨w, s', hw, h', hdoc⟩ := key
  have hsame : ∀ name' v, OrdinaryName name' → ¬ (name' = name ∧ v = w) →
      get root fs' name' (some v) = get root fs name' (some v) := by
    intro name' v ho' hn
    rw [get, get, h'.getVersion_spec ho', h.getVersion_spec ho', hdoc _ _ hn]
  have hfresh : version = none → ¬ s.Has name w := by
    rintro rfl hh
    rcases hw with ⟨l, hl, rfl⟩ | ⟨hn, _⟩
    · have := hl.2 _ hh; omega
    · exact hn w hh
  constructor
  · intro hv name' v ho' r hr
    rw [hsame name' v ho', hr]
    rintro ⟨rfl, rfl⟩
    have hhas : s.Has name' v := (get_some_none h ho v).mp (by rw [hr]; simp)
    rcases hv with hv | ⟨u, rfl, hu⟩
    · exact hfresh hv hhas
    · have : v = u := hw
      subst this
      rw [hr] at hu; cases hu
  · intro name' v ho' hn r hr
    rw [hsame name' v ho', hr]
    rintro ⟨rfl, rfl⟩
    have hhas : s.Has name' v := (get_some_none h ho v).mp (by rw [hr]; simp)
    cases version with
    | none => exact hfresh rfl hhas
    | some u => exact hn ⟨rfl, by rw [show v = u from hw]⟩

/-- The storage of the examples after one `put`. -/
def sampleStored : FS := (put sampleRoot sampleFs "orders".toList sampleInt none).2

theorem orders_ordinary : OrdinaryName "orders".toList := by
  refine ⟨?_, ?_, ?_⟩ <;> decide

theorem sampleStored_reachable : Reachable sampleRoot sampleStored :=
  sampleFs_reachable [.put "orders".toList sampleInt none] (by
    intro c hc
    simp only [List.mem_singleton] at hc
    subst hc
    exact orders_ordinary)

/-- Storing over version 1 empties the file first: a crash at that moment loses version 1. -/
theorem C31_overwrite_refuted : ¬ C31_statement := by
  intro h
  have h1 : (putStates sampleRoot sampleStored "orders".toList sampleInt (some 1)).2[2]? ≠ none := by
    decide +kernel
  obtain ⟨fs', hfs'⟩ := Option.ne_none_iff_exists'.mp h1
  have h2 : get sampleRoot sampleStored "orders".toList (some 1) = .ok (some (sampleRef, 1)) := by
    decide +kernel
  have h3 := h sampleRoot sampleStored sampleStored_reachable "orders".toList orders_ordinary sampleInt
    (some 1) fs' (List.mem_of_getElem? hfs') "orders".toList 1 orders_ordinary _ h2
  have h4 : ∀ g, (putStates sampleRoot sampleStored "orders".toList sampleInt (some 1)).2[2]? = some g →
      get sampleRoot g "orders".toList (some 1) = .error .jsonDecode := by
    intro g hg
    have : ((putStates sampleRoot sampleStored "orders".toList sampleInt (some 1)).2[2]?).map
      (fun g => get sampleRoot g "orders".toList (some 1)) = some (.error .jsonDecode) := by decide +kernel
    rw [hg] at this
    exact Option.some.inj this
  rw [h4 fs' hfs'] at h3
  cases h3

/-! ## C32: a crash during put -/

/-- The full statement: after a crash during `put`, the version reads as it did before or as it
does after the complete `put`. -/
def C32_statement : Prop :=
  ∀ (root : Str) (fs : FS), Reachable root fs → ∀ (name : Str), OrdinaryName name →
    ∀ (t : RType) (version : Option Int) (v : Int), (put root fs name t version).1 = .ok v →
    ∀ fs' ∈ (putStates root fs name t version).2,
      get root fs' name (some v) = get root fs name (some v) ∨
      get root fs' name (some v) = get root (put root fs name t version).2 name (some v)

/-- What is missing: the moment between opening the file and closing it, when the version exists
but cannot be read.  A crash leaves the version as before, completely stored, or unreadable; in the
last case a further `put` without a version succeeds with a higher version, and the latest version
can be read again. -/
theorem C32_crash_outcomes_partial (root : Str) (fs : FS) (hfs : Reachable root fs) (name : Str)
    (ho : OrdinaryName name) (t : RType) (version : Option Int) (v : Int)
    (hput : (put root fs name t version).1 = .ok v)
    (fs' : FS) (hfs' : fs' ∈ (putStates root fs name t version).2) :
    (get root fs' name (some v) = get root fs name (some v) ∨
      get root fs' name (some v) = get root (put root fs name t version).2 name (some v) ∨
      get root fs' name (some v) = .error .jsonDecode) ∧
    ∃ w, (put root fs' name t none).1 = .ok w ∧ (get root fs' name (some v) ≠ .ok none → v < w) ∧
      latest root (put root fs' name t none).2 name = .ok (some w) ∧
      ∀ d u, toDict true true t = .ok d → parse d = .ok u →
        get root (put root fs' name t none).2 name none = .ok (some (u, w)) := by
  obtain ⟨s, h⟩ := hfs.rep
  have hp := h.putStates_spec ho t version
  have hput' := hput
  unfold put at hput'
  split at hp
  · rw [hp] at hput'; cases hput'
  · rename_i d hd
    obtain ⟨w, made, opened, done, h1, h2, h3, h4, h5⟩ := hp
    have hdone : (put root fs name t version).2 = done := by unfold put; rw [h2]; rfl
    rw [h2] at hput' hfs'
    cases hput'
    rw [hdone]
    have key : ∃ s', Rep root fs' s' ∧
        (get root fs' name (some v) = get root fs name (some v) ∨
          get root fs' name (some v) = get root done name (some v) ∨
          get root fs' name (some v) = .error .jsonDecode) := by
      simp only [List.mem_cons, List.not_mem_nil, or_false] at hfs'
      rcases hfs' with rfl | rfl | rfl | rfl
      · exact ⟨_, h, .inl rfl⟩
      · refine ⟨_, h3, .inl ?_⟩
        rw [get, get, h3.getVersion_spec ho, h.getVersion_spec ho]; rfl
      · refine ⟨_, h4, .inr (.inr ?_)⟩
        rw [get, h4.getVersion_spec ho]
        simp [Spec.Store.store, Spec.Store.reading]
      · exact ⟨_, h5, .inr (.inl rfl)⟩
    obtain ⟨s', h', hout⟩ := key
    refine ⟨hout, ?_⟩
    have hp' := h'.putStates_spec ho t none
    rw [hd] at hp'
    obtain ⟨u, made', opened', done', g1, g2, _, _, g5⟩ := hp'
    have hdone' : (put root fs' name t none).2 = done' := by unfold put; rw [g2]; rfl
    have hmax : ∀ x, s'.Has name x → x < u := by
      intro x hx
      rcases g1 with ⟨l, hl, rfl⟩ | ⟨hn, _⟩
      · have := hl.2 x hx; omega
      · exact absurd hx (hn x)
    have hlat : latest root done' name = .ok (some u) := by
      have hhas : (s'.store name u (.complete d)).Has name u := by
        simp [Spec.Store.Has, Spec.Store.store]
      rcases g5.latest_spec ho with ⟨e1, _⟩ | ⟨l, e1, e2⟩
      · exact absurd hhas (e1 u)
      · have hle := e1.2 u hhas
        have : l ≤ u := by
          have hl := e1.1
          simp only [Spec.Store.Has, Spec.Store.store, true_and] at hl
          split at hl
          · omega
          · exact Int.le_of_lt (hmax l hl)
        have : l = u := by omega
        rw [← this]; exact e2
    refine ⟨u, by unfold put; rw [g2], ?_, by rw [hdone']; exact hlat, ?_⟩
    · intro hx
      exact hmax v ((get_some_none h' ho v).mp hx)
    · intro d' t' hd' hparse
      rw [hd] at hd'
      cases hd'
      rw [hdone', get]
      simp only [hlat]
      rw [g5.getVersion_spec ho]
      simp [Spec.Store.store, Spec.Store.reading, hparse]

/-- A crash while the first version is being written leaves a version 1 that cannot be read. -/
theorem C32_unreadable_version_refuted : ¬ C32_statement := by
  intro h
  have h1 : (putStates sampleRoot sampleFs "orders".toList sampleInt none).2[2]? ≠ none := by
    decide +kernel
  obtain ⟨fs', hfs'⟩ := Option.ne_none_iff_exists'.mp h1
  have h3 := h sampleRoot sampleFs (sampleFs_reachable [] (by simp)) "orders".toList orders_ordinary
    sampleInt none 1 (by decide +kernel) fs' (List.mem_of_getElem? hfs')
  have h4 : ((putStates sampleRoot sampleFs "orders".toList sampleInt none).2[2]?).map
      (fun g => get sampleRoot g "orders".toList (some 1)) = some (.error .jsonDecode) := by
    decide +kernel
  rw [hfs'] at h4
  have h4 : get sampleRoot fs' "orders".toList (some 1) = .error .jsonDecode := Option.some.inj h4
  rw [h4] at h3
  rcases h3 with h3 | h3
  · have : get sampleRoot sampleFs "orders".toList (some 1) = .ok none := by decide +kernel
    rw [this] at h3; cases h3
  · have : get sampleRoot (put sampleRoot sampleFs "orders".toList sampleInt none).2 "orders".toList
        (some 1) = .ok (some (sampleRef, 1)) := by decide +kernel
    rw [this] at h3; cases h3

/-! ## Examples -/

/-- A history with two names, ten versions of one of them (so that the order of the file names
differs from the order of the versions) and a crash. -/
def sampleCalls : List Call :=
  List.replicate 10 (.put "a/b c".toList sampleInt none) ++
  [.crash "orders".toList sampleInt none 2, .put "orders".toList sampleInt none]

theorem sampleCalls_ordinary : ∀ c ∈ sampleCalls, OrdinaryCall c := by
  have h1 : OrdinaryName "a/b c".toList := by refine ⟨?_, ?_, ?_⟩ <;> decide
  intro c hc
  simp only [sampleCalls, List.mem_append, List.mem_replicate, List.mem_cons, List.not_mem_nil,
    or_false] at hc
  rcases hc with ⟨_, rfl⟩ | rfl | rfl
  · exact h1
  · exact orders_ordinary
  · exact orders_ordinary

/-- The hypotheses of the theorems above are met by the sample history. -/
example : Reachable sampleRoot (calls sampleRoot sampleFs sampleCalls).2 :=
  sampleFs_reachable _ sampleCalls_ordinary

example : versions sampleRoot (calls sampleRoot sampleFs sampleCalls).2 "a/b c".toList =
    .ok (some [1, 2, 3, 4, 5, 6, 7, 8, 9, 10]) := by decide +kernel

example : latest sampleRoot (calls sampleRoot sampleFs sampleCalls).2 "a/b c".toList = .ok (some 10) := by
  decide +kernel

example : (put sampleRoot (calls sampleRoot sampleFs sampleCalls).2 "a/b c".toList sampleInt none).1 =
    .ok 11 := by decide +kernel

example : versions sampleRoot (calls sampleRoot sampleFs sampleCalls).2 "orders".toList =
    .ok (some [1, 2]) := by decide +kernel

example : get sampleRoot (calls sampleRoot sampleFs sampleCalls).2 "orders".toList (some 1) =
    .error .jsonDecode := by decide +kernel

example : get sampleRoot (calls sampleRoot sampleFs sampleCalls).2 "orders".toList none =
    .ok (some (sampleRef, 2)) := by decide +kernel

example : lsNames sampleRoot (calls sampleRoot sampleFs sampleCalls).2 =
    .ok ["a/b c".toList, "orders".toList] := by decide +kernel

/-- The hypotheses of C30 are met by `put`s of three names. -/
example : lsNames sampleRoot (putAll sampleRoot sampleFs
    [("zürich".toList, sampleInt, none), ("Z".toList, sampleInt, some 3), ("a".toList, sampleInt, none)]) =
    .ok ["Z".toList, "a".toList, "zürich".toList] := by decide +kernel

/-- Versions can be given explicitly, even negative ones. -/
example : versions sampleRoot (putAll sampleRoot sampleFs
    [("a".toList, sampleInt, some 7), ("a".toList, sampleInt, some (-2)), ("a".toList, sampleInt, none)])
      "a".toList = .ok (some [-2, 7, 8]) := by decide +kernel

end Recap
