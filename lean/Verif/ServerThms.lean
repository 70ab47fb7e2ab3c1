import Verif.ServerLemmas

/-! # Properties of the registry server: C33-C38 -/

set_option autoImplicit false

namespace Recap

open Spec (OrdinaryName)

/-! ## Requests and the file system -/

/-- Everything that exists in `fs` is the same in `fs'`. -/
def FS.Extends (fs fs' : FS) : Prop := ∀ p n, fs.at? p = some n → fs'.at? p = some n

theorem FS.Extends.refl (fs : FS) : FS.Extends fs fs := fun _ _ h => h

theorem FS.Extends.trans {a b c : FS} (h1 : FS.Extends a b) (h2 : FS.Extends b c) : FS.Extends a c :=
  fun p n h => h2 p n (h1 p n h)

/-- The place of a file that a request has stored. -/
theorem Mounted.storeBody_extends {root : Str} {fs : FS} (h : Mounted root fs) (name : Str)
    (version : Option Int) (ct : Option Str) (body : Body)
    (hv : ∀ v, version = some v → fs.at? (locate (filePath root name v)) = none) :
    Mounted root (Recap.storeBody root fs name version ct body).2 ∧
      FS.Extends fs (Recap.storeBody root fs name version ct body).2 := by
  rcases h.storeBody name version ct body with ⟨_, _, _, e⟩ | ⟨t, v, d, _, hn, _, _, hm, hat, _, hdir⟩
  · rw [e]; exact ⟨h, .refl fs⟩
  · refine ⟨hm, ?_⟩
    have hfree : fs.at? (locate (filePath root name v)) = none := by
      cases version with
      | none => exact h.next_fresh name v hn hdir
      | some w =>
        simp only [nextVersion, Except.ok.injEq] at hn
        subst hn; exact hv w rfl
    intro p n hp
    rw [hat]
    split
    · rename_i e; rw [e, hfree] at hp; cases hp
    · split
      · rename_i e
        rw [e] at hp
        cases n with
        | dir => rfl
        | file c => exact absurd hp (hdir c)
      · exact hp

/-- Handling a request changes nothing that exists. -/
theorem Mounted.serve {root : Str} {fs : FS} (h : Mounted root fs) (r : Request) :
    Mounted root (Recap.serve root fs r).2 ∧ FS.Extends fs (Recap.serve root fs r).2 := by
  unfold Recap.serve
  rw [h.openStorage]
  simp only
  cases r with
  | ls => exact ⟨h, .refl fs⟩
  | latest name => exact ⟨h, .refl fs⟩
  | versions name => exact ⟨h, .refl fs⟩
  | version name v => exact ⟨h, .refl fs⟩
  | post name ct body => exact h.storeBody_extends name none ct body (fun v e => by cases e)
  | put name v ct body =>
    rw [handle]
    split
    · exact ⟨h, .refl fs⟩
    · rename_i hc
      exact h.storeBody_extends name (some v) ct body (fun w e => by cases e; exact putCheck_none hc)

theorem Mounted.serveAll {root : Str} : ∀ (rs : List Request) {fs : FS}, Mounted root fs →
    Mounted root (Recap.serveAll root fs rs).2 ∧ FS.Extends fs (Recap.serveAll root fs rs).2
  | [], fs, h => ⟨h, .refl fs⟩
  | r :: rs, fs, h => by
    obtain ⟨h1, h2⟩ := h.serve r
    obtain ⟨h3, h4⟩ := Mounted.serveAll rs h1
    exact ⟨h3, h2.trans h4⟩

theorem serve_version {root : Str} {fs : FS} (h : Mounted root fs) (name : Str) (v : Int) :
    (serve root fs (.version name v)).1 = schemaResponse (get root fs name (some v)) := by
  unfold serve
  rw [h.openStorage]
  rfl

theorem schemaResponse_schema {a : Except StoreErr (Option (RType × Int))} {d : PyVal} {v : Int}
    (h : schemaResponse a = .schema d v) : ∃ t, a = .ok (some (t, v)) ∧ toDict true true t = .ok d := by
  unfold schemaResponse at h
  split at h
  · cases h
  · cases h
  · rename_i t w
    split at h
    · cases h
    · rename_i d' hd
      cases h
      exact ⟨t, rfl, hd⟩

theorem get_some_at {root : Str} {fs : FS} {name : Str} {v : Int} {x : RType × Int}
    (h : get root fs name (some v) = .ok (some x)) :
    ∃ d, fs.at? (locate (filePath root name v)) = some (.file (.complete d)) := by
  unfold get getVersion FS.read at h
  cases hat : fs.at? (locate (filePath root name v)) with
  | none =>
    simp only [hat] at h
    cases hm : fs.missing [] (locate (filePath root name v)) <;> simp [hm] at h
  | some n =>
    cases n with
    | dir => simp only [hat] at h; cases h
    | file c =>
      cases c with
      | truncated => simp only [hat] at h; cases h
      | complete d => exact ⟨d, rfl⟩

/-! ## C33: published versions are immutable -/

/-- Requests that are handled one after another never change or remove anything in the file
system, and never change the answer to `GET` of a version that was answered with a schema.  Names
and versions are arbitrary. -/
theorem C33_published_versions_immutable (root : Str) (fs : FS) (hfs : Mounted root fs)
    (rs : List Request) :
    FS.Extends fs (serveAll root fs rs).2 ∧
    ∀ (name : Str) (v : Int) (d : PyVal) (w : Int),
      (serve root fs (.version name v)).1 = .schema d w →
      (serve root (serveAll root fs rs).2 (.version name v)).1 = .schema d w := by
  obtain ⟨h1, h2⟩ := hfs.serveAll rs
  refine ⟨h2, ?_⟩
  intro name v d w hg
  rw [serve_version hfs] at hg
  rw [serve_version h1]
  obtain ⟨t, hx, _⟩ := schemaResponse_schema hg
  obtain ⟨d', hat⟩ := get_some_at hx
  rw [getVersion_of_at hat (h2 _ _ hat)]
  exact hg

/-! ## C37: rejected requests change nothing -/

theorem serve_status {root : Str} {fs : FS} (h : Mounted root fs) (r : Request) {code : Nat}
    (hr : (serve root fs r).1 = .status code) : (serve root fs r).2 = fs := by
  have hsb : ∀ name version ct body, (storeBody root fs name version ct body).1 = .status code →
      (storeBody root fs name version ct body).2 = fs := by
    intro name version ct body hs
    rcases h.storeBody name version ct body with ⟨_, _, _, e⟩ | ⟨_, v, _, _, _, _, e, _⟩
    · exact e
    · rw [e] at hs; cases hs
  unfold serve at hr ⊢
  rw [h.openStorage] at hr ⊢
  simp only at hr ⊢
  cases r with
  | ls => rfl
  | latest name => rfl
  | versions name => rfl
  | version name v => rfl
  | post name ct body => exact hsb _ _ _ _ hr
  | put name v ct body =>
    rw [handle] at hr ⊢
    split
    · rfl
    · rename_i hc
      rw [hc] at hr
      exact hsb _ _ _ _ hr

/-- A request that is answered with an error status leaves the file system as it was, and so does
every request that only reads. -/
theorem C37_rejected_requests_change_nothing (root : Str) (fs : FS) (hfs : Mounted root fs)
    (r : Request) :
    (∀ code, (serve root fs r).1 = .status code → (serve root fs r).2 = fs) ∧
    ((∀ v, (serve root fs r).1 ≠ .stored v) → (serve root fs r).2 = fs) := by
  refine ⟨fun code h => serve_status hfs r h, ?_⟩
  intro h
  cases hr : (serve root fs r).1 with
  | status code => exact serve_status hfs r hr
  | stored v => exact absurd hr (h v)
  | names l | schema d v | versions l =>
    have hsb : ∀ name version ct body, (∃ code, (storeBody root fs name version ct body).1 = .status code) ∨
        ∃ v, (storeBody root fs name version ct body).1 = .stored v := by
      intro name version ct body
      rcases hfs.storeBody name version ct body with ⟨c, e, _⟩ | ⟨_, v, _, _, _, _, e, _⟩
      · exact .inl ⟨c, e⟩
      · exact .inr ⟨v, e⟩
    unfold serve at hr ⊢
    rw [hfs.openStorage] at hr ⊢
    simp only at hr ⊢
    cases r with
    | ls => rfl
    | latest name => rfl
    | versions name => rfl
    | version name v => rfl
    | post name ct body =>
      rcases hsb name none ct body with ⟨c, e⟩ | ⟨c, e⟩ <;> rw [handle, e] at hr <;> cases hr
    | put name v ct body =>
      rw [handle] at hr ⊢
      split
      · rfl
      · rename_i hc
        rw [hc] at hr
        rcases hsb name (some v) ct body with ⟨c, e⟩ | ⟨c, e⟩ <;> simp only [e] at hr <;> cases hr

/-! ## Concurrent requests -/

/-- There is a file at `p`. -/
def FS.IsFile (fs : FS) (p : Place) : Prop := ∃ c, fs.at? p = some (.file c)

/-- Storing a body, even over a version that exists, removes no file. -/
theorem Mounted.storeBody_isFile {root : Str} {fs : FS} (h : Mounted root fs) (name : Str)
    (version : Option Int) (ct : Option Str) (body : Body) :
    Mounted root (Recap.storeBody root fs name version ct body).2 ∧
      ∀ p, fs.IsFile p → (Recap.storeBody root fs name version ct body).2.IsFile p := by
  rcases h.storeBody name version ct body with ⟨_, _, _, e⟩ | ⟨t, v, d, _, hn, _, _, hm, hat, _, hdir⟩
  · rw [e]; exact ⟨h, fun _ h => h⟩
  · refine ⟨hm, ?_⟩
    rintro p ⟨c, hp⟩
    unfold FS.IsFile
    rw [hat]
    split
    · exact ⟨_, rfl⟩
    · split
      · rename_i e; rw [e] at hp; exact absurd hp (hdir c)
      · exact ⟨c, hp⟩

/-- The name and version that an answered request has stored. -/
def storedBy : Request → Response → Option (Str × Int)
  | .post name _ _, .stored v => some (name, v)
  | .put name _ _ _, .stored v => some (name, v)
  | _, _ => none

/-- What one step of a task does. -/
theorem Mounted.step {root : Str} {fs : FS} (h : Mounted root fs) (task : Handling) :
    Mounted root (task.step root fs).2 ∧
    (∀ p, fs.IsFile p → (task.step root fs).2.IsFile p) ∧
    (∀ r resp, (task.step root fs).1 = .done r resp → (∀ r' resp', task ≠ .done r' resp') →
      ∀ name v, storedBy r resp = some (name, v) →
        (task.step root fs).2.IsFile (locate (filePath root name v)) ∧
        (∀ w ct body, r = .put name w ct body → v = w) ∧
        ((∃ ct body, r = .post name ct body) → ¬ fs.IsFile (locate (filePath root name v)))) := by
  have hpost : ∀ name ct body, (Recap.serve root fs (.post name ct body)) =
      Recap.storeBody root fs name none ct body := by
    intro name ct body
    unfold Recap.serve
    rw [h.openStorage]
    rfl
  cases task with
  | done r resp =>
    refine ⟨h, fun _ hp => hp, ?_⟩
    intro r' resp' _ hn
    exact absurd rfl (hn r resp)
  | checked name v ct body =>
    obtain ⟨h1, h2⟩ := h.storeBody_isFile name (some v) ct body
    refine ⟨h1, h2, ?_⟩
    intro r resp hr _ name' v' hs
    simp only [Handling.step] at hr ⊢
    injection hr with e1 e2
    subst e1
    rcases h.storeBody name (some v) ct body with ⟨_, e, _⟩ | ⟨t, w, d, _, hn, _, e, _, hat, _⟩
    · rw [e] at e2; subst e2; cases hs
    · rw [e] at e2
      subst e2
      simp only [storedBy, Option.some.injEq, Prod.mk.injEq] at hs
      simp only [nextVersion, Except.ok.injEq] at hn
      obtain ⟨rfl, rfl⟩ := hs
      refine ⟨⟨.complete d, by rw [hat, if_pos rfl]⟩, ?_, ?_⟩
      · intro w' ct' body' e; cases e; exact hn.symm
      · rintro ⟨_, _, e⟩; cases e
  | waiting r =>
    cases r with
    | put name v ct body =>
      simp only [Handling.step]
      rw [h.openStorage]
      simp only
      split
      · rename_i resp hc
        refine ⟨h, fun _ hp => hp, ?_⟩
        intro r' resp' hr _ name' v' hs
        injection hr with e1 e2
        subst e1; subst e2
        rcases putCheck_some hc with rfl | rfl <;> cases hs
      · refine ⟨h, fun _ hp => hp, ?_⟩
        intro r' resp' hr _ name' v' hs
        cases hr
    | post name ct body =>
      simp only [Handling.step]
      rw [hpost]
      obtain ⟨h1, h2⟩ := h.storeBody_isFile name none ct body
      refine ⟨h1, h2, ?_⟩
      intro r' resp' hr _ name' v' hs
      injection hr with e1 e2
      subst e1
      rcases h.storeBody name none ct body with ⟨_, e, _⟩ | ⟨t, w, d, _, hn, _, e, _, hat, _, hdir⟩
      · rw [e] at e2; subst e2; cases hs
      · rw [e] at e2
        subst e2
        simp only [storedBy, Option.some.injEq, Prod.mk.injEq] at hs
        obtain ⟨rfl, rfl⟩ := hs
        refine ⟨⟨.complete d, by rw [hat, if_pos rfl]⟩, ?_, ?_⟩
        · intro w' ct' body' e; cases e
        · rintro _ ⟨c, hc⟩
          rw [h.next_fresh name w hn hdir] at hc; cases hc
    | ls | latest _ | versions _ | version _ _ =>
      obtain ⟨h1, h2⟩ := h.serve _
      refine ⟨h1, fun p ⟨c, hp⟩ => ⟨c, h2 _ _ hp⟩, ?_⟩
      intro r' resp' hr _ name' v' hs
      injection hr with e1 e2
      subst e1
      simp [storedBy] at hs

/-- What holds at every moment while requests are handled. -/
structure Running (root : Str) (fs : FS) (tasks : List Handling) : Prop where
  mounted : Mounted root fs
  stored : ∀ (i : Nat) r resp name v, tasks[i]? = some (.done r resp) → storedBy r resp = some (name, v) →
    fs.IsFile (locate (filePath root name v)) ∧ ∀ w ct body, r = .put name w ct body → v = w
  distinct : ∀ (i j : Nat) name ct body ct' body' v v', i ≠ j →
    tasks[i]? = some (.done (.post name ct body) (.stored v)) →
    tasks[j]? = some (.done (.post name ct' body') (.stored v')) → v ≠ v'

theorem Running.step {root : Str} {fs : FS} {tasks : List Handling} (h : Running root fs tasks) (k : Nat)
    (task : Handling) (hk : tasks[k]? = some task) :
    Running root (task.step root fs).2 (tasks.set k (task.step root fs).1) := by
  obtain ⟨h1, h2, h3⟩ := h.mounted.step task
  have hget : ∀ i : Nat, (tasks.set k (task.step root fs).1)[i]? =
      if i = k then some (task.step root fs).1 else tasks[i]? := by
    intro i
    rw [List.getElem?_set]
    have hlen : k < tasks.length := (List.getElem?_eq_some_iff.mp hk).1
    by_cases e : k = i
    · subst e; simp [hlen]
    · simp [e, Ne.symm e]
  have hdone : ∀ r' resp', task = .done r' resp' → (task.step root fs).1 = task := by
    rintro r' resp' rfl; rfl
  have hold : ∀ (i : Nat) r resp name v, (tasks.set k (task.step root fs).1)[i]? = some (.done r resp) →
      storedBy r resp = some (name, v) →
      (tasks[i]? = some (.done r resp)) ∨ (i = k ∧ (∀ r' resp', task ≠ .done r' resp') ∧
        (task.step root fs).1 = .done r resp) := by
    intro i r resp name v hi _
    rw [hget] at hi
    by_cases e : i = k
    · rw [if_pos e] at hi
      by_cases hd : ∃ r' resp', task = .done r' resp'
      · obtain ⟨r', resp', hd⟩ := hd
        left
        rw [hdone r' resp' hd] at hi
        rw [e, hk]; exact hi
      · right
        exact ⟨e, fun r' resp' hh => hd ⟨r', resp', hh⟩, Option.some.inj hi⟩
    · rw [if_neg e] at hi; exact .inl hi
  constructor
  · exact h1
  · intro i r resp name v hi hs
    rcases hold i r resp name v hi hs with hi' | ⟨_, hn, hr⟩
    · obtain ⟨g1, g2⟩ := h.stored i r resp name v hi' hs
      exact ⟨h2 _ g1, g2⟩
    · obtain ⟨g1, g2, _⟩ := h3 r resp hr hn name v hs
      exact ⟨g1, g2⟩
  · intro i j name ct body ct' body' v v' hij hi hj
    rcases hold i _ _ name v hi rfl with hi' | ⟨ei, hn, hr⟩
    · rcases hold j _ _ name v' hj rfl with hj' | ⟨ej, hn, hr⟩
      · exact h.distinct i j name ct body ct' body' v v' hij hi' hj'
      · obtain ⟨_, _, g3⟩ := h3 _ _ hr hn name v' rfl
        rintro rfl
        exact g3 ⟨ct', body', rfl⟩ (h.stored i _ _ name v hi' rfl).1
    · rcases hold j _ _ name v' hj rfl with hj' | ⟨ej, _, _⟩
      · obtain ⟨_, _, g3⟩ := h3 _ _ hr hn name v rfl
        rintro rfl
        exact g3 ⟨ct, body, rfl⟩ (h.stored j _ _ name v hj' rfl).1
      · exact absurd (ei.trans ej.symm) hij

theorem Running.run {root : Str} : ∀ (schedule : List Nat) {fs : FS} {tasks : List Handling},
    Running root fs tasks → Running root (runHandlers root fs tasks schedule).2
      (runHandlers root fs tasks schedule).1
  | [], _, _, h => h
  | k :: schedule, fs, tasks, h => by
    rw [runHandlers]
    split
    · exact Running.run schedule h
    · rename_i task hk
      exact Running.run schedule (h.step k task hk)

theorem Running.start {root : Str} {fs : FS} (h : Mounted root fs) (rs : List Request) :
    Running root fs (rs.map .waiting) := by
  have hno : ∀ (i : Nat) r resp, (rs.map Handling.waiting)[i]? = some (.done r resp) → False := by
    intro i r resp hi
    rw [List.getElem?_map] at hi
    cases hr : rs[i]? with
    | none => rw [hr] at hi; cases hi
    | some x => rw [hr] at hi; cases hi
  constructor
  · exact h
  · intro i r resp name v hi _; exact (hno i r resp hi).elim
  · intro i j name ct body ct' body' v v' _ hi _; exact (hno i _ _ hi).elim

/-! ## C35: concurrent POSTs -/

/-- Under every interleaving of requests within one server process, two successful POSTs to one
name get different versions. -/
theorem C35_posts_get_distinct_versions (root : Str) (fs : FS) (hfs : Mounted root fs)
    (rs : List Request) (schedule : List Nat) (i j : Nat) (hij : i ≠ j) (name : Str)
    (ct ct' : Option Str) (body body' : Body) (v v' : Int)
    (hi : (runHandlers root fs (rs.map .waiting) schedule).1[i]? =
      some (.done (.post name ct body) (.stored v)))
    (hj : (runHandlers root fs (rs.map .waiting) schedule).1[j]? =
      some (.done (.post name ct' body') (.stored v'))) : v ≠ v' :=
  ((Running.start hfs rs).run schedule).distinct i j name ct body ct' body' v v' hij hi hj

/-! ## C34: concurrent PUTs -/

/-- The full statement: under every interleaving, at most one PUT of a name and version succeeds. -/
def C34_statement : Prop :=
  ∀ (root : Str) (fs : FS), Mounted root fs → ∀ (rs : List Request) (schedule : List Nat) (i j : Nat),
    i ≠ j → ∀ (name : Str) (version : Int) (ct ct' : Option Str) (body body' : Body) (v v' : Int),
    (runHandlers root fs (rs.map .waiting) schedule).1[i]? =
      some (.done (.put name version ct body) (.stored v)) →
    (runHandlers root fs (rs.map .waiting) schedule).1[j]? ≠
      some (.done (.put name version ct' body') (.stored v'))

theorem runHandlers_append (root : Str) : ∀ (s1 s2 : List Nat) (fs : FS) (tasks : List Handling),
    runHandlers root fs tasks (s1 ++ s2) =
      runHandlers root (runHandlers root fs tasks s1).2 (runHandlers root fs tasks s1).1 s2
  | [], _, _, _ => rfl
  | k :: s1, s2, fs, tasks => by
    rw [List.cons_append, runHandlers, runHandlers]
    split
    · exact runHandlers_append root s1 s2 fs tasks
    · exact runHandlers_append root s1 s2 _ _

/-- A PUT that starts when the version exists is rejected, whatever runs in between. -/
theorem late_put {root : Str} {name : Str} {version : Int} {ct : Option Str} {body : Body} :
    ∀ (schedule : List Nat) {fs : FS} {tasks : List Handling} (j : Nat), Running root fs tasks →
    fs.IsFile (locate (filePath root name version)) →
    (tasks[j]? = some (.waiting (.put name version ct body)) ∨
      ∃ code, tasks[j]? = some (.done (.put name version ct body) (.status code))) →
    (runHandlers root fs tasks schedule).1[j]? = some (.waiting (.put name version ct body)) ∨
      ∃ code, (runHandlers root fs tasks schedule).1[j]? =
        some (.done (.put name version ct body) (.status code))
  | [], _, _, _, _, _, hj => hj
  | k :: schedule, fs, tasks, j, h, hf, hj => by
    rw [runHandlers]
    split
    · exact late_put schedule j h hf hj
    · rename_i task hk
      apply late_put schedule j (h.step k task hk) ((h.mounted.step task).2.1 _ hf)
      have hlen : k < tasks.length := (List.getElem?_eq_some_iff.mp hk).1
      rw [List.getElem?_set]
      by_cases e : k = j
      · subst e
        rw [if_pos rfl, if_pos hlen]
        rw [hk] at hj
        rcases hj with hj | ⟨code, hj⟩
        · cases Option.some.inj hj
          right
          simp only [Handling.step]
          rw [h.mounted.openStorage]
          simp only
          cases hc : putCheck root fs name version with
          | none =>
            obtain ⟨c, hc'⟩ := hf
            rw [putCheck_none hc] at hc'; cases hc'
          | some r =>
            rcases putCheck_some hc with rfl | rfl
            · exact ⟨500, rfl⟩
            · exact ⟨409, rfl⟩
        · cases Option.some.inj hj
          exact .inr ⟨code, rfl⟩
      · rw [if_neg e]; exact hj

/-- What is missing: two PUTs that have both checked before either has stored.  If one PUT has
succeeded when another PUT (or before another PUT) of the same name and version starts, the second
never succeeds. -/
theorem C34_later_puts_rejected_partial (root : Str) (fs : FS) (hfs : Mounted root fs)
    (rs : List Request) (before after : List Nat) (i j : Nat) (name : Str) (version : Int)
    (ct ct' : Option Str) (body body' : Body) (v v' : Int)
    (hi : (runHandlers root fs (rs.map .waiting) before).1[i]? =
      some (.done (.put name version ct body) (.stored v)))
    (hj : (runHandlers root fs (rs.map .waiting) before).1[j]? =
      some (.waiting (.put name version ct' body'))) :
    (runHandlers root fs (rs.map .waiting) (before ++ after)).1[j]? ≠
      some (.done (.put name version ct' body') (.stored v')) := by
  have hrun := (Running.start hfs rs).run before
  obtain ⟨hfile, hv⟩ := hrun.stored i _ _ name v hi rfl
  have := hv _ _ _ rfl
  subst this
  rw [runHandlers_append]
  rcases late_put after j hrun hfile (.inl hj) with h | ⟨code, h⟩
  · rw [h]; intro e; cases e
  · rw [h]; intro e; cases e

theorem serve_put_file {root : Str} {fs : FS} (h : Mounted root fs) {name : Str} {version : Int}
    {ct : Option Str} {body : Body} {v : Int}
    (hr : (serve root fs (.put name version ct body)).1 = .stored v) :
    fs.at? (locate (filePath root name version)) = none ∧ v = version ∧
      (serve root fs (.put name version ct body)).2.IsFile (locate (filePath root name version)) := by
  unfold serve at hr ⊢
  rw [h.openStorage] at hr ⊢
  simp only [handle] at hr ⊢
  split at hr
  · rename_i r hc
    rcases putCheck_some hc with rfl | rfl <;> cases hr
  · rename_i hc
    rcases h.storeBody name (some version) ct body with ⟨_, e, _⟩ | ⟨t, w, d, _, hn, _, e, _, hat, _⟩
    · rw [e] at hr; cases hr
    · rw [e] at hr
      simp only [nextVersion, Except.ok.injEq] at hn
      cases hr
      subst hn
      exact ⟨putCheck_none hc, rfl, .complete d, by rw [hat, if_pos rfl]⟩

/-- What is missing: PUTs that overlap in time.  If requests are handled one after another, at most
one PUT of a name and version succeeds. -/
theorem C34_sequential_puts_partial (root : Str) (fs : FS) (hfs : Mounted root fs)
    (rs rs' : List Request) (name : Str) (version : Int) (ct ct' : Option Str) (body body' : Body)
    (v v' : Int)
    (h1 : (serve root (serveAll root fs rs).2 (.put name version ct body)).1 = .stored v) :
    (serve root (serveAll root (serve root (serveAll root fs rs).2 (.put name version ct body)).2
      rs').2 (.put name version ct' body')).1 ≠ .stored v' := by
  have m1 := (hfs.serveAll rs).1
  have m2 := (m1.serve (.put name version ct body)).1
  obtain ⟨m3, e3⟩ := m2.serveAll rs'
  intro h2
  obtain ⟨_, _, c, hc⟩ := serve_put_file m1 h1
  obtain ⟨hnone, _⟩ := serve_put_file m3 h2
  rw [e3 _ _ hc] at hnone
  cases hnone

/-! ## Histories -/

theorem Rep.mounted {root : Str} {fs : FS} {s : Spec.Store} (h : Rep root fs s) : Mounted root fs :=
  ⟨h.tree, h.root_dir⟩

/-- The name in a request is ordinary. -/
def OrdinaryRequest : Request → Prop
  | .ls => True
  | .latest name | .versions name | .version name _ | .post name _ _ | .put name _ _ _ =>
    OrdinaryName name

theorem Rep.storeBody_spec {root : Str} {fs : FS} {s : Spec.Store} (h : Rep root fs s) {name : Str}
    (ho : OrdinaryName name) (version : Option Int) (ct : Option Str) (body : Body) :
    (∃ code, Recap.storeBody root fs name version ct body = (.status code, fs)) ∨
    ∃ t d v, requestToType ct body = .ok t ∧ toDict true true t = .ok d ∧ s.IsNext name version v ∧
      (Recap.storeBody root fs name version ct body).1 = .stored v ∧
      Rep root (Recap.storeBody root fs name version ct body).2 (s.store name v (.complete d)) := by
  unfold Recap.storeBody
  cases ht : requestToType ct body with
  | error code => exact .inl ⟨code, rfl⟩
  | ok t =>
    have hp := h.putStates_spec ho t version
    unfold Recap.put
    split at hp
    · rename_i e he
      left
      simp only [hp]
      exact ⟨500, rfl⟩
    · rename_i d hd
      obtain ⟨v, made, opened, done, h1, h2, _, _, h5⟩ := hp
      right
      simp only [h2]
      exact ⟨t, d, v, rfl, hd, h1, rfl, h5⟩

/-- What a request does to the abstract store. -/
theorem Rep.serve_spec {root : Str} {fs : FS} {s : Spec.Store} (h : Rep root fs s) (r : Request)
    (ho : OrdinaryRequest r) :
    (storedBy r (Recap.serve root fs r).1 = none ∧ (Recap.serve root fs r).2 = fs) ∨
    ∃ name v d, storedBy r (Recap.serve root fs r).1 = some (name, v) ∧ OrdinaryName name ∧
      Rep root (Recap.serve root fs r).2 (s.store name v (.complete d)) := by
  unfold Recap.serve
  rw [h.mounted.openStorage]
  simp only
  cases r with
  | ls => exact .inl ⟨rfl, rfl⟩
  | latest name => exact .inl ⟨rfl, rfl⟩
  | versions name => exact .inl ⟨rfl, rfl⟩
  | version name v => exact .inl ⟨rfl, rfl⟩
  | post name ct body =>
    rw [handle]
    rcases h.storeBody_spec ho none ct body with ⟨code, e⟩ | ⟨t, d, v, _, _, _, e, hrep⟩
    · left; rw [e]; exact ⟨rfl, rfl⟩
    · right; exact ⟨name, v, d, by rw [e]; rfl, ho, hrep⟩
  | put name w ct body =>
    rw [handle]
    split
    · rename_i r hc
      left
      rcases putCheck_some hc with rfl | rfl <;> exact ⟨rfl, rfl⟩
    · rcases h.storeBody_spec ho (some w) ct body with ⟨code, e⟩ | ⟨t, d, v, _, _, _, e, hrep⟩
      · left; rw [e]; exact ⟨rfl, rfl⟩
      · right; exact ⟨name, v, d, by rw [e]; rfl, ho, hrep⟩

/-- The names and versions that a history of requests has stored. -/
def storedIn (root : Str) (fs : FS) (rs : List Request) : List (Str × Int) :=
  (rs.zip (serveAll root fs rs).1).filterMap (fun p => storedBy p.1 p.2)

/-- After a history of requests, the versions that exist are those that the history has
stored, and all of them are complete. -/
theorem Rep.serveAll_spec {root : Str} : ∀ (rs : List Request) {fs : FS} {s : Spec.Store},
    Rep root fs s → (∀ r ∈ rs, OrdinaryRequest r) →
    ∃ s', Rep root (Recap.serveAll root fs rs).2 s' ∧
      (∀ name v, s'.Has name v ↔ s.Has name v ∨ (name, v) ∈ storedIn root fs rs) ∧
      (∀ name, s'.known name ↔ s.known name ∨ ∃ v, (name, v) ∈ storedIn root fs rs) ∧
      ((∀ name v, s.doc name v ≠ some .truncated) → ∀ name v, s'.doc name v ≠ some .truncated)
  | [], fs, s, h, _ => ⟨s, h, by simp [storedIn], by simp [storedIn], fun h => h⟩
  | r :: rs, fs, s, h, ho => by
    have ho' := fun r hr => ho r (List.mem_cons_of_mem _ hr)
    have hin : storedIn root fs (r :: rs) = (storedBy r (Recap.serve root fs r).1).toList ++
        storedIn root (Recap.serve root fs r).2 rs := by
      simp only [storedIn, Recap.serveAll, List.zip_cons_cons, List.filterMap_cons]
      cases storedBy r (Recap.serve root fs r).1 <;> rfl
    rw [Recap.serveAll]
    simp only
    rcases h.serve_spec r (ho r (by simp)) with ⟨e1, e2⟩ | ⟨n, v, d, e1, _, hrep⟩
    · rw [hin, e1, e2]
      obtain ⟨s', g1, g2, g3, g4⟩ := Rep.serveAll_spec rs h ho'
      exact ⟨s', g1, by simpa using g2, by simpa using g3, g4⟩
    · rw [hin, e1]
      obtain ⟨s', g1, g2, g3, g4⟩ := Rep.serveAll_spec rs hrep ho'
      refine ⟨s', g1, ?_, ?_, ?_⟩
      · intro name w
        rw [g2]
        simp only [Option.toList, List.singleton_append, List.mem_cons, Prod.mk.injEq]
        constructor
        · rintro (hh | hh)
          · by_cases e : name = n ∧ w = v
            · exact .inr (.inl e)
            · simp only [Spec.Store.Has, Spec.Store.store, if_neg e] at hh
              exact .inl hh
          · exact .inr (.inr hh)
        · rintro (hh | hh | hh)
          · left
            simp only [Spec.Store.Has, Spec.Store.store]
            split
            · simp
            · exact hh
          · left
            simp [Spec.Store.Has, Spec.Store.store, hh]
          · exact .inr hh
      · intro name
        rw [g3]
        simp only [Option.toList, List.singleton_append, List.mem_cons, Prod.mk.injEq,
          Spec.Store.store]
        constructor
        · rintro ((hh | hh) | ⟨w, hh⟩)
          · exact .inl hh
          · exact .inr ⟨v, .inl ⟨hh, rfl⟩⟩
          · exact .inr ⟨w, .inr hh⟩
        · rintro (hh | ⟨w, ⟨hh, _⟩ | hh⟩)
          · exact .inl (.inl hh)
          · exact .inl (.inr hh)
          · exact .inr ⟨w, hh⟩
      · intro hs
        apply g4
        intro name w
        simp only [Spec.Store.store]
        split
        · simp
        · exact hs name w

/-! ## C38: unknown names and versions -/

/-- The full statement: after any history of requests on a new storage, GET of a version answers
with 404 if it has never been stored and with 200 if it has. -/
def C38_statement : Prop :=
  ∀ (root : Str) (fs : FS), NewStorage root fs → ∀ rs : List Request, (∀ r ∈ rs, OrdinaryRequest r) →
    ∀ (name : Str) (v : Int), OrdinaryName name →
      ((name, v) ∉ storedIn root fs rs →
        (serve root (serveAll root fs rs).2 (.version name v)).1 = .status 404) ∧
      ((name, v) ∈ storedIn root fs rs →
        ∃ d, (serve root (serveAll root fs rs).2 (.version name v)).1 = .schema d v)

theorem schemaResponse_404 {a : Except StoreErr (Option (RType × Int))} :
    schemaResponse a = .status 404 ↔ a = .ok none := by
  unfold schemaResponse
  split
  · simp
  · simp
  · split <;> simp

/-- What is missing: that the stored document can be read and written again, without which the
answer is 500 and not 200.  After any history of requests on a new storage, GET of a version, of the
latest version or of the list of versions answers with 404 exactly if no request has stored it, and
the list of versions is exact and in ascending order. -/
theorem C38_unknown_is_404_partial (root : Str) (fs : FS) (hfs : NewStorage root fs)
    (rs : List Request) (hrs : ∀ r ∈ rs, OrdinaryRequest r) (name : Str) (ho : OrdinaryName name) :
    (∀ v, (serve root (serveAll root fs rs).2 (.version name v)).1 = .status 404 ↔
      (name, v) ∉ storedIn root fs rs) ∧
    ((serve root (serveAll root fs rs).2 (.latest name)).1 = .status 404 ↔
      ∀ v, (name, v) ∉ storedIn root fs rs) ∧
    (((∀ v, (name, v) ∉ storedIn root fs rs) ∧
        (serve root (serveAll root fs rs).2 (.versions name)).1 = .status 404) ∨
      ∃ l, l ≠ [] ∧ (serve root (serveAll root fs rs).2 (.versions name)).1 = .versions l ∧
        Spec.Ascending l ∧ ∀ v, v ∈ l ↔ (name, v) ∈ storedIn root fs rs) := by
  obtain ⟨s, h, hhas, hknown, _⟩ := Rep.serveAll_spec rs hfs.rep hrs
  have hhas : ∀ v, s.Has name v ↔ (name, v) ∈ storedIn root fs rs := by
    intro v
    rw [hhas]
    simp [Spec.Store.Has, Spec.Store.empty]
  have hget : ∀ v, get root (serveAll root fs rs).2 name (some v) = .ok none ↔
      (name, v) ∉ storedIn root fs rs := by
    intro v
    rw [← hhas, ← get_some_none h ho]
    simp
  generalize (serveAll root fs rs).2 = fs' at h hget
  have hopen := h.mounted.openStorage
  refine ⟨?_, ?_, ?_⟩
  · intro v
    rw [serve_version h.mounted, schemaResponse_404, hget]
  · unfold serve
    rw [hopen]
    simp only [handle]
    rw [schemaResponse_404, get]
    rcases h.latest_spec ho with ⟨g1, g2⟩ | ⟨l, g1, g2⟩
    · simp only [g2, true_iff]
      intro v hv
      exact g1 v ((hhas v).mpr hv)
    · simp only [g2]
      constructor
      · intro hn
        exact absurd hn ((get_some_none h ho l).mpr g1.1)
      · intro hn
        exact absurd ((hhas l).mp g1.1) (hn l)
  · unfold serve
    rw [hopen]
    simp only [handle]
    by_cases hk : s.known name
    · obtain ⟨l, g1, g2, g3⟩ := h.versions_known ho hk
      rw [g1]
      cases l with
      | nil =>
        left
        exact ⟨fun v hv => by simpa using (g3 v).mpr ((hhas v).mpr hv), rfl⟩
      | cons x l =>
        right
        exact ⟨x :: l, by simp, rfl, g2, fun v => by rw [g3, hhas]⟩
    · left
      refine ⟨fun v hv => hk (h.has_known _ _ ((hhas v).mpr hv)), ?_⟩
      rw [h.versions_unknown ho hk]

/-! ## C36: GET returns what was stored -/

/-- The full statement: GET of a stored version returns a document that reads as a type equal to the
one that was sent. -/
def C36_statement : Prop :=
  ∀ (root : Str) (fs : FS), Mounted root fs → ∀ (r : Request) (t : RType) (name : Str) (v : Int),
    ((∃ ct body, r = .post name ct body ∧ requestToType ct body = .ok t) ∨
      ∃ ct body, r = .put name v ct body ∧ requestToType ct body = .ok t) →
    (serve root fs r).1 = .stored v → ∀ rs : List Request,
    ∃ d t', (serve root (serveAll root (serve root fs r).2 rs).2 (.version name v)).1 = .schema d v ∧
      parse d = .ok t' ∧ RType.pyEq t' t = true

/-- What is missing: that the type survives being written in canonical form (C02, C03).  Whatever
happens after a successful POST or PUT, GET of that version answers as reading and writing the
canonical form of the type that was sent gives; if the canonical form is stable, it is the
answer. -/
theorem C36_get_returns_stored_partial (root : Str) (fs : FS) (hfs : Mounted root fs) (r : Request)
    (t : RType) (name : Str) (v : Int)
    (hr : (∃ ct body, r = .post name ct body ∧ requestToType ct body = .ok t) ∨
      ∃ ct body, r = .put name v ct body ∧ requestToType ct body = .ok t)
    (hs : (serve root fs r).1 = .stored v) (rs : List Request) :
    ∃ d, toDict true true t = .ok d ∧
      (∀ t' d', parse d = .ok t' → toDict true true t' = .ok d' →
        (serve root (serveAll root (serve root fs r).2 rs).2 (.version name v)).1 = .schema d' v) ∧
      ((∀ t', parse d = .ok t' → ∀ d', toDict true true t' ≠ .ok d') →
        (serve root (serveAll root (serve root fs r).2 rs).2 (.version name v)).1 = .status 500) := by
  have key : ∃ d, toDict true true t = .ok d ∧
      (serve root fs r).2.at? (locate (filePath root name v)) = some (.file (.complete d)) := by
    rcases hr with ⟨ct, body, rfl, ht⟩ | ⟨ct, body, rfl, ht⟩
    · unfold serve at hs ⊢
      rw [hfs.openStorage] at hs ⊢
      simp only [handle] at hs ⊢
      rcases hfs.storeBody name none ct body with ⟨_, e, _⟩ | ⟨t', w, d, ht', _, hd, e, _, hat, _⟩
      · rw [e] at hs; cases hs
      · rw [e] at hs
        cases hs
        rw [ht] at ht'
        cases ht'
        exact ⟨d, hd, by rw [hat, if_pos rfl]⟩
    · unfold serve at hs ⊢
      rw [hfs.openStorage] at hs ⊢
      simp only [handle] at hs ⊢
      split at hs
      · rename_i resp hc
        rcases putCheck_some hc with rfl | rfl <;> cases hs
      · rename_i hc
        rcases hfs.storeBody name (some v) ct body with
          ⟨_, e, _⟩ | ⟨t', w, d, ht', _, hd, e, _, hat, _⟩
        · rw [e] at hs; cases hs
        · rw [e] at hs
          cases hs
          rw [ht] at ht'
          cases ht'
          exact ⟨d, hd, by rw [hat, if_pos rfl]⟩
  obtain ⟨d, hd, hat⟩ := key
  obtain ⟨m, ext⟩ := (hfs.serve r).1.serveAll rs
  have hat := ext _ _ hat
  have hget : get root (serveAll root (serve root fs r).2 rs).2 name (some v) =
      match parse d with
      | .error e => .error (.py e)
      | .ok t => .ok (some (t, v)) := by
    unfold get getVersion FS.read
    simp only [hat]
    cases parse d <;> rfl
  refine ⟨d, hd, ?_, ?_⟩
  · intro t' d' hp hd'
    rw [serve_version m, hget, hp]
    simp only [schemaResponse, hd']
  · intro hn
    rw [serve_version m, hget]
    cases hp : parse d with
    | error e => rfl
    | ok t' =>
      simp only [schemaResponse]
      cases hd' : toDict true true t' with
      | error e => rfl
      | ok d' => exact absurd hd' (hn t' hp d')

/-! ## Examples and refutations -/

theorem sampleFs_mounted : Mounted sampleRoot sampleFs := sampleFs_new.rep.mounted

/-- A PUT of version 1 of `orders`. -/
def samplePut (type : String) : Request := .put "orders".toList 1 none (.json (.str type))

/-- Two PUTs of the same version both check before either stores: both succeed, and the second
overwrites what the first has stored. -/
theorem C34_overlapping_puts_refuted : ¬ C34_statement := by
  intro h
  have h1 := h sampleRoot sampleFs sampleFs_mounted [samplePut "int32", samplePut "bool"] [0, 1, 0, 1]
    0 1 (by decide) "orders".toList 1 none none (.json (.str "int32")) (.json (.str "bool")) 1 1
  exact h1 (by decide +kernel) (by decide +kernel)

/-- After the two PUTs, version 1 is what the second has sent. -/
example : (serve sampleRoot (runHandlers sampleRoot sampleFs
    ([samplePut "int32", samplePut "bool"].map .waiting) [0, 1, 0, 1]).2
      (.version "orders".toList 1)).1 = .schema (.str "bool") 1 := by decide +kernel

/-- One after another, the second PUT is rejected. -/
example : (serveAll sampleRoot sampleFs [samplePut "int32", samplePut "bool",
    .version "orders".toList 1]).1 =
    [.stored 1, .status 409, .schema (.str "int32") 1] := by decide +kernel

/-- A document whose `default`, `doc` and `name` are lost when it is written in canonical form. -/
def lossyDocument : PyVal :=
  .dict [("type", .str "union"), ("types", .list [.str "null", .str "string"]), ("default", .none),
    ("doc", .str "d"), ("x", .int 1)]

theorem C36_lossy_document_refuted : ¬ C36_statement := by
  intro h
  cases ht : requestToType none (.json lossyDocument) with
  | error c =>
    have : (requestToType none (.json lossyDocument)).toBool = true := by decide +kernel
    rw [ht] at this; cases this
  | ok t =>
    obtain ⟨d, t', h1, h2, h3⟩ := h sampleRoot sampleFs sampleFs_mounted
      (.post "orders".toList none (.json lossyDocument)) t "orders".toList 1
      (.inl ⟨none, _, rfl, ht⟩) (by decide +kernel) []
    have hd : (serve sampleRoot (serve sampleRoot sampleFs
        (.post "orders".toList none (.json lossyDocument))).2 (.version "orders".toList 1)).1 =
        .schema (.dict [("type", .str "union"), ("x", .int 1),
          ("types", .list [.str "null", .str "string"])]) 1 := by decide +kernel
    rw [serveAll, hd] at h1
    cases h1
    have hne : (match requestToType none (.json lossyDocument), parse (.dict [("type", .str "union"),
        ("x", .int 1), ("types", .list [.str "null", .str "string"])]) with
        | .ok a, .ok b => RType.pyEq b a
        | _, _ => false) = false := by decide +kernel
    rw [ht, h2] at hne
    simp only [h3] at hne
    cases hne

/-- A document that is stable: its hypotheses of C36 are met, and GET returns it. -/
def stableDocument : PyVal :=
  .dict [("type", .str "struct"), ("alias", .str "shop.Order"),
    ("fields", .list [.dict [("type", .str "int32"), ("name", .str "id")],
      .dict [("type", .str "string"), ("bytes", .int 100), ("name", .str "note"),
        ("optional", .bool true)]])]

example : (serveAll sampleRoot sampleFs [.post "orders".toList none (.json stableDocument),
    .post "orders".toList none (.json (.int 7)), .post "orders".toList none .notUtf8,
    .post "orders".toList (some "text/plain".toList) (.json (.str "bool")),
    .post "orders".toList (some recapContentType) (.text "bool"),
    .latest "orders".toList, .versions "orders".toList, .version "orders".toList 3,
    .version "orders".toList 1, .ls, .latest "nothing".toList]).1 =
    [.stored 1, .status 400, .status 500, .status 415, .stored 2, .schema (.str "bool") 2, .versions [1, 2],
     .status 404, .schema stableDocument 1, .names ["orders".toList], .status 404] := by decide +kernel

end Recap
