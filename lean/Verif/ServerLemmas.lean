import Verif.StorageThms
import Verif.Server

/-! # Lemmas about the registry server -/

set_option autoImplicit false

namespace Recap

/-- A file system with the root directory in which everything is in a directory. -/
structure Mounted (root : Str) (fs : FS) : Prop where
  tree : fs.Tree
  root_dir : fs.at? (locate root) = some .dir

/-- Whatever the name, the directory of a name exists or is directly in the root directory. -/
theorem locate_dirPath_any (root name : Str) :
    locate (dirPath root name) = locate root ∨ locate (dirPath root name) = (locate root).dropLast ∨
      locate (dirPath root name) = locate root ++ [quotePlus name] := by
  unfold locate dirPath
  rw [splitSlash_slash, walk_append, splitSlash_part (quotePlus_no_slash name), walk]
  split
  · exact .inl rfl
  · split
    · exact .inr (.inl rfl)
    · exact .inr (.inr rfl)

theorem Mounted.dir_cases {root : Str} {fs : FS} (h : Mounted root fs) (name : Str) :
    fs.at? (locate (dirPath root name)) = some .dir ∨
      locate (dirPath root name) = locate root ++ [quotePlus name] := by
  rcases locate_dirPath_any root name with e | e | e
  · left; rw [e]; exact h.root_dir
  · left
    rw [e]
    rcases List.eq_nil_or_concat (locate root) with e2 | ⟨p, c, e2⟩
    · rw [e2]; exact FS.at?_nil _
    · have hr := h.root_dir
      rw [e2, List.concat_eq_append] at hr
      rw [e2, List.concat_eq_append, List.dropLast_concat]
      exact h.tree _ _ _ hr
  · exact .inr e

theorem Mounted.openStorage {root : Str} {fs : FS} (h : Mounted root fs) :
    openStorage root fs = .ok fs := by
  unfold Recap.openStorage FS.mkdirs
  apply FS.makeDirs_exists
  intro q r hq _
  rw [List.nil_append]
  have hp := h.root_dir
  by_cases hr : r = []
  · subst hr; rw [List.append_nil] at hq; rw [← hq]; exact hp
  · rw [hq] at hp; exact h.tree.above r q _ hr hp

theorem makeDirs_of_dir {fs : FS} (ht : fs.Tree) {p : Place} (hp : fs.at? p = some .dir) :
    fs.makeDirs [] p = .ok fs := by
  apply FS.makeDirs_exists
  intro q r hq _
  rw [List.nil_append]
  by_cases hr : r = []
  · subst hr; rw [List.append_nil] at hq; rw [← hq]; exact hp
  · rw [hq] at hp; exact ht.above r q _ hr hp

theorem ne_append_one (p : Place) (c : Str) : p ≠ p ++ [c] := by
  intro e; simpa using congrArg List.length e

/-- What storing a document does, for any name: nothing, or the file is written and the
directory exists. -/
theorem Mounted.writeFile {root : Str} {fs : FS} (h : Mounted root fs) (name : Str) (v : Int)
    (d : PyVal) :
    (∃ e, (writeFile root fs name v d).1 = .error e ∧
      (writeFile root fs name v d).2.getLastD fs = fs) ∨
    ∃ done, (writeFile root fs name v d).1 = .ok v ∧ (writeFile root fs name v d).2.getLastD fs = done ∧
      Mounted root done ∧ (∀ q, done.at? q =
        if q = locate (filePath root name v) then some (.file (.complete d))
        else if q = locate (dirPath root name) then some .dir else fs.at? q) ∧
      fs.at? (locate (filePath root name v)) ≠ some .dir ∧
      ∀ c, fs.at? (locate (dirPath root name)) ≠ some (.file c) := by
  have hF : locate (filePath root name v) = locate (dirPath root name) ++ [versionFile v] :=
    locate_filePath_any root name v
  generalize hP : locate (dirPath root name) = P at hF
  have hmk : (∃ e, fs.mkdirs (dirPath root name) = .error e) ∨
      ∃ made, fs.mkdirs (dirPath root name) = .ok made ∧ Mounted root made ∧
        (∀ q, made.at? q = if q = P then some .dir else fs.at? q) ∧
        (∀ c, fs.at? P ≠ some (.file c)) ∧ (fs.at? P = some .dir → made = fs) := by
    unfold FS.mkdirs
    rw [hP]
    have hdir : fs.at? P = some .dir → ∃ made, fs.makeDirs [] P = .ok made ∧ Mounted root made ∧
        (∀ q, made.at? q = if q = P then some .dir else fs.at? q) ∧
        (∀ c, fs.at? P ≠ some (.file c)) ∧ (fs.at? P = some .dir → made = fs) := by
      intro hd
      refine ⟨fs, makeDirs_of_dir h.tree hd, h, ?_, ?_, fun _ => rfl⟩
      · intro q; split
        · rename_i e; rw [e, hd]
        · rfl
      · intro c hc; rw [hd] at hc; cases hc
    rcases h.dir_cases name with hd | e
    · rw [hP] at hd; exact .inr (hdir hd)
    · rw [hP] at e
      cases hat : fs.at? P with
      | some n =>
        cases n with
        | dir => right; rw [hat] at hdir; exact hdir rfl
        | file c =>
          left
          rw [e, FS.makeDirs_one h.tree h.root_dir, ← e, hat]
          exact ⟨_, rfl⟩
      | none =>
        right
        have hne : P ≠ [] := by rw [e]; simp
        refine ⟨fs.write P .dir, ?_, ⟨?_, ?_⟩, ?_, by intro c hc; simp at hc, by intro hc; cases hc⟩
        · rw [e, FS.makeDirs_one h.tree h.root_dir, ← e, hat]
        · rw [e]; exact h.tree.write h.root_dir (.inl rfl)
        · rw [FS.at?_write hne, if_neg]
          · exact h.root_dir
          · rw [e]; exact ne_append_one _ _
        · intro q; rw [FS.at?_write hne]
  rcases hmk with ⟨e, he⟩ | ⟨made, hm, hmm, hmat, hnf, hsame⟩
  · left
    refine ⟨e, ?_, ?_⟩ <;> simp only [Recap.writeFile, he] <;> rfl
  · have hFP : P ++ [versionFile v] ≠ P := Ne.symm (ne_append_one _ _)
    have hmadeF : made.at? (P ++ [versionFile v]) = fs.at? (P ++ [versionFile v]) := by
      rw [hmat, if_neg hFP]
    have hmadeP : made.at? P = some .dir := by rw [hmat, if_pos rfl]
    have hne : P ++ [versionFile v] ≠ [] := by simp
    have hsave : ∀ (g : FS) (c : Content), g.at? P = some .dir →
        g.at? (P ++ [versionFile v]) ≠ some .dir →
        g.save (filePath root name v) c = .ok (g.write (P ++ [versionFile v]) (.file c)) := by
      intro g c hg hgf
      unfold FS.save
      rw [hF]
      cases hx : g.at? (P ++ [versionFile v]) with
      | some n =>
        cases n with
        | dir => exact absurd hx hgf
        | file _ => rfl
      | none =>
        simp only
        rw [List.dropLast_concat, hg]
    by_cases hdirF : fs.at? (P ++ [versionFile v]) = some .dir
    · left
      have hPd : fs.at? P = some .dir := h.tree _ _ _ hdirF
      have hmf := hsame hPd
      subst hmf
      have hsv : made.save (filePath root name v) .truncated = .error .isADirectory := by
        unfold FS.save; rw [hF, hdirF]
      refine ⟨.isADirectory, ?_, ?_⟩ <;> simp only [Recap.writeFile, hm, hsv] <;> rfl
    · right
      have h1 := hsave made .truncated hmadeP (by rw [hmadeF]; exact hdirF)
      have hop : (made.write (P ++ [versionFile v]) (.file .truncated)).at? P = some .dir := by
        rw [FS.at?_write hne, if_neg (ne_append_one _ _)]; exact hmadeP
      have h2 := hsave (made.write (P ++ [versionFile v]) (.file .truncated)) (.complete d) hop (by
        rw [FS.at?_write hne, if_pos rfl]; simp)
      refine ⟨(made.write (P ++ [versionFile v]) (.file .truncated)).write (P ++ [versionFile v])
        (.file (.complete d)), ?_, ?_, ⟨?_, ?_⟩, ?_, by rw [hF]; exact hdirF, hnf⟩
      · simp only [Recap.writeFile, hm, h1, h2]
      · simp only [Recap.writeFile, hm, h1, h2]; rfl
      · refine FS.Tree.write ?_ hop (.inr (by rw [FS.at?_write hne, if_pos rfl]; simp))
        exact hmm.tree.write hmadeP (.inr (by rw [hmadeF]; exact hdirF))
      · rw [FS.at?_write hne, FS.at?_write hne]
        have : locate root ≠ P ++ [versionFile v] := by
          intro e
          have hr := hmm.root_dir
          rw [e, hmadeF] at hr
          exact hdirF hr
        rw [if_neg this, if_neg this]
        exact hmm.root_dir
      · intro q
        rw [FS.at?_write hne, FS.at?_write hne, hF, hmat]
        split <;> rfl

/-- What `put` does, for any name. -/
theorem Mounted.put {root : Str} {fs : FS} (h : Mounted root fs) (name : Str) (t : RType)
    (version : Option Int) :
    (∃ e, (put root fs name t version).1 = .error e ∧ (put root fs name t version).2 = fs) ∨
    ∃ v d, nextVersion root fs name version = .ok v ∧ toDict true true t = .ok d ∧
      (put root fs name t version).1 = .ok v ∧ Mounted root (put root fs name t version).2 ∧
      (∀ q, (put root fs name t version).2.at? q =
        if q = locate (filePath root name v) then some (.file (.complete d))
        else if q = locate (dirPath root name) then some .dir else fs.at? q) ∧
      fs.at? (locate (filePath root name v)) ≠ some .dir ∧
      ∀ c, fs.at? (locate (dirPath root name)) ≠ some (.file c) := by
  unfold Recap.put putStates
  cases hv : nextVersion root fs name version with
  | error e => left; exact ⟨e, rfl, rfl⟩
  | ok v =>
    cases hd : toDict true true t with
    | error e => left; exact ⟨.py e, rfl, rfl⟩
    | ok d =>
      simp only
      rcases h.writeFile name v d with ⟨e, h1, h2⟩ | ⟨done, h1, h2, h3, h4, h5, h6⟩
      · left; exact ⟨e, h1, h2⟩
      · right
        refine ⟨v, d, rfl, rfl, h1, ?_, ?_, h5, h6⟩
        · rw [h2]; exact h3
        · rw [h2]; exact h4

/-- The version chosen for a name, whatever the name, does not exist. -/
theorem Mounted.next_fresh {root : Str} {fs : FS} (h : Mounted root fs) (name : Str) (v : Int)
    (hv : nextVersion root fs name none = .ok v)
    (hdir : ∀ c, fs.at? (locate (dirPath root name)) ≠ some (.file c)) :
    fs.at? (locate (filePath root name v)) = none := by
  rw [locate_filePath_any]
  cases hat : fs.at? (locate (dirPath root name)) with
  | none =>
    cases hf : fs.at? (locate (dirPath root name) ++ [versionFile v]) with
    | none => rfl
    | some n =>
      have := h.tree _ _ _ hf
      rw [hat] at this; cases this
  | some n =>
    cases n with
    | file c => exact absurd hat (hdir c)
    | dir =>
      cases hf : fs.at? (locate (dirPath root name) ++ [versionFile v]) with
      | none => rfl
      | some n =>
        exfalso
        have hmem : versionFile v ∈ fs.names (locate (dirPath root name)) := by
          rw [FS.mem_names, hf]; simp
        have hparse : ∀ (l : List Str) (vs : List Int), parseVersions l = .ok vs →
            versionFile v ∈ l → v ∈ vs := by
          intro l
          induction l with
          | nil => intro vs _ hm; simp at hm
          | cons f l ih =>
            intro vs hp hm
            rw [parseVersions] at hp
            split at hp
            · cases hp
            · rename_i w hw
              split at hp
              · cases hp
              · rename_i ws hws
                cases hp
                rcases List.mem_cons.mp hm with e | hm
                · rw [← e, stem_versionFile] at hw
                  rw [Option.some.inj hw]; simp
                · exact List.mem_cons_of_mem _ (ih ws hws hm)
        unfold nextVersion latest versions FS.ls at hv
        simp only [hat] at hv
        cases hpv : parseVersions (fs.names (locate (dirPath root name))) with
        | error e => rw [hpv] at hv; cases hv
        | ok vs =>
          rw [hpv] at hv
          simp only at hv
          have hin : v ∈ sortBy (fun a b => decide (a ≤ b)) vs :=
            (mem_sortBy _ _ _).mpr (hparse _ _ hpv hmem)
          cases hs : sortBy (fun a b => decide (a ≤ b)) vs with
          | nil => rw [hs] at hin; simp at hin
          | cons x xs =>
            rw [hs] at hv hin
            simp only at hv
            have hm := (maxInt_spec x xs).2 v hin
            cases hv
            omega

/-- The answer of `get` for a version, from what is at the place of its file. -/
theorem getVersion_of_at {root : Str} {fs fs' : FS} {name : Str} {v : Int} {n : Node}
    (h : fs.at? (locate (filePath root name v)) = some n)
    (h' : fs'.at? (locate (filePath root name v)) = some n) :
    get root fs' name (some v) = get root fs name (some v) := by
  unfold get getVersion FS.read
  simp only [h, h']
  cases n with
  | dir => rfl
  | file c => cases c <;> rfl

theorem get_none_at {root : Str} {fs : FS} {name : Str} {v : Int}
    (h : get root fs name (some v) = .ok none) : fs.at? (locate (filePath root name v)) = none := by
  unfold get getVersion FS.read at h
  cases hat : fs.at? (locate (filePath root name v)) with
  | none => rfl
  | some n =>
    simp only [hat] at h
    cases n with
    | dir => cases h
    | file c =>
      cases c with
      | truncated => cases h
      | complete d =>
        simp only at h
        cases hp : parse d with
        | error e => rw [hp] at h; cases h
        | ok t => rw [hp] at h; cases h

/-- What reading a body and storing it does, for any name, if the version does not exist. -/
theorem Mounted.storeBody {root : Str} {fs : FS} (h : Mounted root fs) (name : Str)
    (version : Option Int) (ct : Option Str) (body : Body) :
    (∃ code, (storeBody root fs name version ct body).1 = .status code ∧ 400 ≤ code ∧
      (storeBody root fs name version ct body).2 = fs) ∨
    ∃ t v d, requestToType ct body = .ok t ∧ nextVersion root fs name version = .ok v ∧
      toDict true true t = .ok d ∧
      (storeBody root fs name version ct body).1 = .stored v ∧
      Mounted root (storeBody root fs name version ct body).2 ∧
      (∀ q, (storeBody root fs name version ct body).2.at? q =
        if q = locate (filePath root name v) then some (.file (.complete d))
        else if q = locate (dirPath root name) then some .dir else fs.at? q) ∧
      fs.at? (locate (filePath root name v)) ≠ some .dir ∧
      ∀ c, fs.at? (locate (dirPath root name)) ≠ some (.file c) := by
  unfold Recap.storeBody
  cases ht : requestToType ct body with
  | error code =>
    left
    refine ⟨code, rfl, ?_, rfl⟩
    unfold requestToType bodyToType at ht
    split at ht
    · split at ht
      · cases ht; decide
      · split at ht <;> cases ht; decide
      · split at ht <;> cases ht; decide
    · cases ht; decide
  | ok t =>
    simp only
    rcases h.put name t version with ⟨e, h1, h2⟩ | ⟨v, d, h1, h2, h3, h4, h5, h6, h7⟩
    · left
      refine ⟨500, ?_, by decide, ?_⟩
      · rw [← Prod.eta (Recap.put root fs name t version), h1]
      · rw [← Prod.eta (Recap.put root fs name t version), h1]; exact h2
    · right
      refine ⟨t, v, d, rfl, h1, h2, ?_, ?_, ?_, h6, h7⟩
      · rw [← Prod.eta (Recap.put root fs name t version), h3]
      · rw [← Prod.eta (Recap.put root fs name t version), h3]; exact h4
      · rw [← Prod.eta (Recap.put root fs name t version), h3]; exact h5

theorem putCheck_none {root : Str} {fs : FS} {name : Str} {v : Int}
    (h : putCheck root fs name v = none) : fs.at? (locate (filePath root name v)) = none := by
  unfold putCheck at h
  split at h
  · cases h
  · cases h
  · rename_i hg; exact get_none_at hg

theorem putCheck_some {root : Str} {fs : FS} {name : Str} {v : Int} {r : Response}
    (h : putCheck root fs name v = some r) : r = .status 500 ∨ r = .status 409 := by
  unfold putCheck at h
  split at h
  · cases h; exact .inl rfl
  · cases h; exact .inr rfl
  · cases h

end Recap
