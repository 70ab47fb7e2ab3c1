import Verif.ServerThms
import Verif.RegistryThms

/-! # Further properties of the storage and the registry server: C26, C73, C74 -/

set_option autoImplicit false

namespace Recap

open Spec (Call Answer OrdinaryName OrdinaryCall)

/-! ## C26: versions increase over a history -/

theorem Allowed.has {s s' : Spec.Store} {c : Call} {a : Answer} (h : Spec.Allowed s c a s')
    {name : Str} {v : Int} (hv : s.Has name v) : s'.Has name v := by
  have hstore : ∀ n w c, (s.store n w c).Has name v := by
    intro n w c
    simp only [Spec.Store.Has, Spec.Store.store]
    split
    · simp
    · exact hv
  cases c with
  | put n t version =>
    cases a <;> simp only [Spec.Allowed] at h
    split at h
    · rw [h.2]; exact hv
    · obtain ⟨w, _, _, rfl⟩ := h; exact hstore _ _ _
  | crash n t version step =>
    cases a <;> simp only [Spec.Allowed] at h
    split at h
    · rw [h]; exact hv
    · obtain ⟨w, _, rfl | rfl | rfl | rfl⟩ := h
      · exact hv
      · exact hv
      · exact hstore _ _ _
      · exact hstore _ _ _
  | get n version =>
    cases version <;> cases a <;> simp only [Spec.Allowed] at h <;> rw [h.1] <;> exact hv
  | versions n => cases a <;> simp only [Spec.Allowed] at h; rw [h.1]; exact hv
  | latest n => cases a <;> simp only [Spec.Allowed] at h; rw [h.1]; exact hv
  | ls => cases a <;> simp only [Spec.Allowed] at h; rw [h.1]; exact hv

theorem AllowedAll.has : ∀ {cs : List Call} {as : List Answer} {s s' : Spec.Store},
    Spec.AllowedAll s cs as s' → ∀ {name : Str} {v : Int}, s.Has name v → s'.Has name v
  | [], [], _, _, h, _, _, hv => by rw [show _ = _ from h]; exact hv
  | _ :: cs, _ :: as, _, _, h, _, _, hv => by
    obtain ⟨s1, h1, h2⟩ := h
    exact AllowedAll.has h2 (Allowed.has h1 hv)
  | [], _ :: _, _, _, h, _, _, _ => h.elim
  | _ :: _, [], _, _, h, _, _, _ => h.elim

/-- Whatever is called in between, and whatever crashes, a later `put` without a version gets a
higher version than any earlier `put` of the same name. -/
theorem C26_versions_increase (root : Str) (fs : FS) (hfs : Reachable root fs) (name : Str)
    (ho : OrdinaryName name) (t t' : RType) (version : Option Int) (v v' : Int) (cs : List Call)
    (hcs : ∀ c ∈ cs, OrdinaryCall c)
    (h1 : (put root fs name t version).1 = .ok v)
    (h2 : (put root (calls root (put root fs name t version).2 cs).2 name t' none).1 = .ok v') :
    v < v' := by
  obtain ⟨s, h⟩ := hfs.rep
  have hp := h.putStates_spec ho t version
  split at hp
  · unfold put at h1; rw [hp] at h1; cases h1
  · rename_i d hd
    obtain ⟨w, made, opened, done, g1, g2, _, _, g5⟩ := hp
    have hdone : (put root fs name t version).2 = done := by unfold put; rw [g2]; rfl
    unfold put at h1
    rw [g2] at h1
    cases h1
    rw [hdone] at h2
    obtain ⟨s', ha, hrep⟩ := Rep.calls_spec cs g5 hcs
    have hhas : s'.Has name v := AllowedAll.has ha (by simp [Spec.Store.Has, Spec.Store.store])
    obtain ⟨u, hu, hnext⟩ := hrep.nextVersion_spec ho none
    have hp' := hrep.putStates_spec ho t' none
    unfold put at h2
    split at hp'
    · rw [hp'] at h2; cases h2
    · obtain ⟨w', _, _, _, k1, k2, _⟩ := hp'
      rw [k2] at h2
      cases h2
      rcases k1 with ⟨l, hl, rfl⟩ | ⟨hn, _⟩
      · have := hl.2 v hhas; omega
      · exact absurd hhas (hn v)

/-- The hypotheses are met: a `put` of version 4, a crash, and a `put` without a version. -/
example : (put sampleRoot sampleFs "orders".toList sampleInt (some 4)).1 = .ok 4 ∧
    (put sampleRoot (calls sampleRoot (put sampleRoot sampleFs "orders".toList sampleInt (some 4)).2
      [.crash "orders".toList sampleInt none 2]).2 "orders".toList sampleInt none).1 = .ok 6 := by
  decide +kernel

/-! ## C73: what can be stored -/

/-- The document in a body. -/
def Body.document : Body → Option PyVal
  | .json v => some v
  | .text s => some (.str s)
  | .notUtf8 => none

/-- The full statement: a schema that POST or PUT has accepted keeps to the documented bounds, and
every reference in it resolves. -/
def C73_statement : Prop :=
  ∀ (root : Str) (fs : FS), Mounted root fs → ∀ (name : Str) (ct : Option Str) (body : Body) (v : Int),
    (serve root fs (.post name ct body)).1 = .stored v →
    ∃ d t reg, body.document = some d ∧ fromDict d newRegistry = .ok (t, reg) ∧ Spec.Bounded t ∧
      ∀ r a, Spec.Sub (.proxy r a) t → ∃ u, resolve reg r a = .ok u

theorem requestToType_ok {ct : Option Str} {body : Body} {t : RType}
    (h : requestToType ct body = .ok t) :
    ∃ d reg, body.document = some d ∧ fromDict d newRegistry = .ok (t, reg) := by
  unfold requestToType at h
  split at h
  · have hparse : ∀ v, parse v = .ok t → ∃ reg, fromDict v newRegistry = .ok (t, reg) := by
      intro v hv
      unfold parse at hv
      cases hf : fromDict v newRegistry with
      | error e => rw [hf] at hv; cases hv
      | ok p =>
        rw [hf] at hv
        obtain ⟨t', reg⟩ := p
        cases hv
        exact ⟨reg, rfl⟩
    cases body with
    | notUtf8 => cases h
    | json v =>
      simp only [bodyToType] at h
      split at h
      · rename_i t' ht
        cases h
        obtain ⟨reg, hr⟩ := hparse v ht
        exact ⟨v, reg, rfl, hr⟩
      · cases h
    | text s =>
      simp only [bodyToType] at h
      split at h
      · rename_i t' ht
        cases h
        obtain ⟨reg, hr⟩ := hparse _ ht
        exact ⟨_, reg, rfl, hr⟩
      · cases h
  · cases h

/-- What is missing: references that resolve.  A schema that POST or PUT has accepted is a Recap
type of the documented bounds; everything nested in it keeps to them too. -/
theorem C73_stored_types_bounded_partial (root : Str) (fs : FS) (hfs : Mounted root fs) (r : Request)
    (name : Str) (ct : Option Str) (body : Body) (v : Int)
    (hr : r = .post name ct body ∨ ∃ w, r = .put name w ct body)
    (hs : (serve root fs r).1 = .stored v) :
    ∃ d t reg, body.document = some d ∧ fromDict d newRegistry = .ok (t, reg) ∧
      ∀ u, Spec.Sub u t → Spec.Bounded u := by
  have key : ∃ t, requestToType ct body = .ok t := by
    unfold serve at hs
    rw [hfs.openStorage] at hs
    simp only at hs
    rcases hr with rfl | ⟨w, rfl⟩
    · rw [handle] at hs
      rcases hfs.storeBody name none ct body with ⟨_, e, _⟩ | ⟨t, _, _, ht, _⟩
      · rw [e] at hs; cases hs
      · exact ⟨t, ht⟩
    · rw [handle] at hs
      split at hs
      · rename_i resp hc
        rcases putCheck_some hc with rfl | rfl <;> cases hs
      · rcases hfs.storeBody name (some w) ct body with ⟨_, e, _⟩ | ⟨t, _, _, ht, _⟩
        · rw [e] at hs; cases hs
        · exact ⟨t, ht⟩
  obtain ⟨t, ht⟩ := key
  obtain ⟨d, reg, h1, h2⟩ := requestToType_ok ht
  exact ⟨d, t, reg, h1, h2, fun u hu => C06_nested_types_bounded d newRegistry reg t u h2 hu⟩

/-- A body that is neither JSON nor the name of a type is accepted as a reference to a type of that
name, and stored. -/
theorem C73_any_text_accepted_refuted : ¬ C73_statement := by
  intro h
  obtain ⟨d, t, reg, h1, h2, _, h4⟩ := h sampleRoot sampleFs sampleFs_mounted "orders".toList none
    (.text "not a type!") 1 (by decide +kernel)
  cases h1
  have hf : fromDict (.str "not a type!") newRegistry =
      .ok (.proxy .none { alias := .str "not a type!" }, newRegistry) := by decide +kernel
  rw [hf] at h2
  cases h2
  obtain ⟨u, hu⟩ := h4 _ _ .refl
  have : (resolve newRegistry .none { alias := .str "not a type!" }).toBool = false := by decide +kernel
  rw [hu] at this
  cases this

/-- The hypotheses of the partial theorem are met. -/
example : (serve sampleRoot sampleFs (.post "orders".toList none (.json stableDocument))).1 = .stored 1 := by
  decide +kernel

/-! ## C74: several server processes -/

/-- A process that stores a type without a version (storage/registry.py 52-63): processes can be
interleaved between choosing the version and writing the file. -/
inductive Process where
  | start (name : Str) (t : RType)
  | chosen (name : Str) (v : Int) (d : PyVal)
  | done (name : Str) (r : Except StoreErr Int)
deriving DecidableEq

/-- A process runs up to a point where another can run (storage/registry.py 52-63). -/
def Process.step (root : Str) (fs : FS) : Process → Process × FS
  | .start name t =>
    match nextVersion root fs name none with
    | .error e => (.done name (.error e), fs)
    | .ok v =>
      match toDict true true t with
      | .error e => (.done name (.error (.py e)), fs)
      | .ok d => (.chosen name v d, fs)
  | .chosen name v d =>
    (.done name (writeFile root fs name v d).1, (writeFile root fs name v d).2.getLastD fs)
  | .done name r => (.done name r, fs)

/-- Processes that take turns. -/
def runProcesses (root : Str) (fs : FS) (ps : List Process) : List Nat → List Process × FS
  | [] => (ps, fs)
  | i :: schedule =>
    match ps[i]? with
    | none => runProcesses root fs ps schedule
    | some p =>
      let a := p.step root fs
      runProcesses root a.2 (ps.set i a.1) schedule

/-- The full statement: processes that share a storage get different versions. -/
def C74_statement : Prop :=
  ∀ (root : Str) (fs : FS), Reachable root fs → ∀ (ps : List (Str × RType)) (schedule : List Nat)
    (i j : Nat), i ≠ j → ∀ (name : Str) (v v' : Int), OrdinaryName name →
    (runProcesses root fs (ps.map (fun p => .start p.1 p.2)) schedule).1[i]? = some (.done name (.ok v)) →
    (runProcesses root fs (ps.map (fun p => .start p.1 p.2)) schedule).1[j]? = some (.done name (.ok v')) →
    v ≠ v'

/-- Two processes choose the same version before either has written it; one schema is lost. -/
theorem C74_lost_schema_refuted : ¬ C74_statement := by
  intro h
  exact h sampleRoot sampleFs (sampleFs_reachable [] (by simp))
    [("orders".toList, sampleInt), ("orders".toList, .bool {})] [0, 1, 0, 1] 0 1 (by decide)
    "orders".toList 1 1 orders_ordinary (by decide +kernel) (by decide +kernel) rfl

/-- What is missing: processes that overlap.  If a process starts after another has finished, it gets
a higher version. -/
theorem C74_later_process_partial (root : Str) (fs : FS) (hfs : Reachable root fs) (name : Str)
    (ho : OrdinaryName name) (t t' : RType) (v v' : Int)
    (h1 : (runProcesses root fs [.start name t, .start name t'] [0, 0, 1, 1]).1 =
      [.done name (.ok v), .done name (.ok v')]) : v < v' := by
  have hput : ∀ (fs : FS) (t : RType) (v : Int) (p : Process × FS),
      p = (Process.start name t).step root fs → (p.1.step root p.2).1 = .done name (.ok v) →
      (put root fs name t none).1 = .ok v ∧ (put root fs name t none).2 = (p.1.step root p.2).2 := by
    intro fs t v p hp h
    subst hp
    unfold put putStates
    cases hw : nextVersion root fs name none with
    | error e => simp only [Process.step, hw] at h; cases h
    | ok w =>
      cases hd : toDict true true t with
      | error e => simp only [Process.step, hw, hd] at h; cases h
      | ok d =>
        simp only [Process.step, hw, hd] at h ⊢
        injection h with _ h
        exact ⟨h, trivial⟩
  simp only [runProcesses, List.getElem?_cons_zero, List.getElem?_cons_succ, List.set_cons_zero,
    List.set_cons_succ] at h1
  simp only [List.cons.injEq, and_true] at h1
  obtain ⟨e1, e2⟩ := h1
  obtain ⟨p1, q1⟩ := hput fs t v _ rfl e1
  obtain ⟨p2, _⟩ := hput _ t' v' _ rfl e2
  refine C26_versions_increase root fs hfs name ho t t' none v v' [] (by simp) p1 ?_
  rw [calls, q1]
  exact p2

example : (runProcesses sampleRoot sampleFs [.start "orders".toList sampleInt,
    .start "orders".toList (.bool {})] [0, 0, 1, 1]).1 =
    [.done "orders".toList (.ok 1), .done "orders".toList (.ok 2)] := by decide +kernel

end Recap
