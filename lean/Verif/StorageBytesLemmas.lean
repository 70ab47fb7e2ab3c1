import Verif.StorageBytes
import Verif.StorageThms

/-! # Lemmas about the storage with the bytes of files -/

set_option autoImplicit false

namespace Recap.Bytes

open Recap (Str Place StoreErr RType locate dirPath filePath parseVersions unquoteAll sortBy strLe maxInt Content)
open JsonText (Floats)

/-- What a file is read as. -/
def content (F : Floats) (b : List UInt8) : Content :=
  match JsonText.loadBytes F b with
  | .ok v => .complete v
  | .error _ => .truncated

/-- A directory or file, with what it is read as. -/
def Node.view (F : Floats) : Node → Recap.Node
  | .dir => .dir
  | .file b => .file (content F b)

/-- The file system with what files are read as. -/
def Disk.view (F : Floats) (fs : Disk) : FS := fs.map fun qn => (qn.1, qn.2.view F)

variable {F : Floats}

theorem at?_view (fs : Disk) (p : Place) : (fs.view F).at? p = (fs.at? p).map (Node.view F) := by
  induction fs with
  | nil => cases p <;> rfl
  | cons e rest ih =>
    obtain ⟨q, n⟩ := e
    cases p with
    | nil => rfl
    | cons c p =>
      simp only [Disk.view, List.map_cons, FS.at?, Disk.at?]
      split
      · rfl
      · exact ih

theorem write_view (fs : Disk) (p : Place) (n : Node) : (fs.write p n).view F = (fs.view F).write p (n.view F) := by
  induction fs with
  | nil => rfl
  | cons e rest ih =>
    obtain ⟨q, m⟩ := e
    simp only [Disk.view, List.map_cons, FS.write, Disk.write]
    split
    · rfl
    · exact congrArg _ ih

theorem names_view (fs : Disk) (p : Place) : (fs.view F).names p = fs.names p := by
  unfold FS.names Disk.names Disk.view
  rw [List.filterMap_map]
  rfl

theorem missing_view (fs : Disk) (ps : List Str) (acc : Place) : (fs.view F).missing acc ps = fs.missing acc ps := by
  induction ps generalizing acc with
  | nil => rfl
  | cons p ps ih =>
    rw [FS.missing, Disk.missing, at?_view]
    cases fs.at? (acc ++ [p]) with
    | none => exact ih _
    | some n => cases n with
      | dir => exact ih _
      | file b => rfl

theorem ls_view (fs : Disk) (path : Str) : (fs.view F).ls path = fs.ls path := by
  rw [FS.ls, Disk.ls, at?_view]
  cases fs.at? (locate path) with
  | none => simp only [Option.map_none, missing_view]
  | some n => cases n with
    | dir => simp only [Option.map_some, Node.view, names_view]
    | file b => rfl

theorem makeDirs_view (ps : List Str) (fs : Disk) (acc : Place) :
    (fs.view F).makeDirs acc ps = (fs.makeDirs acc ps).map (Disk.view F) := by
  induction ps generalizing fs acc with
  | nil => rfl
  | cons p ps ih =>
    rw [FS.makeDirs, Disk.makeDirs, at?_view]
    cases fs.at? (acc ++ [p]) with
    | none =>
      simp only [Option.map_none]
      rw [← ih, write_view]
      rfl
    | some n => cases n with
      | dir => exact ih _ _
      | file b => rfl

theorem versions_view (root : Str) (fs : Disk) (name : Str) : Recap.versions root (fs.view F) name = versions root fs name := by
  rw [Recap.versions, versions, ls_view]
  rfl

theorem latest_view (root : Str) (fs : Disk) (name : Str) : Recap.latest root (fs.view F) name = latest root fs name := by
  rw [Recap.latest, latest, versions_view]
  rfl

theorem lsNames_view (root : Str) (fs : Disk) : Recap.lsNames root (fs.view F) = lsNames root fs := by
  rw [Recap.lsNames, lsNames, ls_view]
  rfl

theorem nextVersion_view (root : Str) (fs : Disk) (name : Str) (version : Option Int) :
    Recap.nextVersion root (fs.view F) name version = nextVersion root fs name version := by
  cases version with
  | some v => rfl
  | none =>
    rw [Recap.nextVersion, nextVersion, latest_view]
    rfl

/-! ## Reading -/

/-- The bytes are the text of a document, or no JSON text. -/
def Plain (F : Floats) (b : List UInt8) : Prop :=
  (∃ v, JsonText.loadBytes F b = .ok v) ∨ JsonText.loadBytes F b = .error .decode

/-- The files below the root directory are texts of documents, or no JSON texts. -/
def Readable (F : Floats) (root : Str) (fs : Disk) : Prop :=
  ∀ q b, fs.at? (locate root ++ q) = some (.file b) → Plain F b

theorem read_view {fs : Disk} {path : Str} (h : ∀ b, fs.at? (locate path) = some (.file b) → Plain F b) :
    (fs.view F).read path = fs.read F path := by
  rw [FS.read, Disk.read, at?_view]
  cases hat : fs.at? (locate path) with
  | none => simp only [Option.map_none, missing_view]
  | some n => cases n with
    | dir => rfl
    | file b =>
      rcases h b hat with ⟨v, hv⟩ | hv
      · simp only [Option.map_some, Node.view, content, hv, Disk.document]
      · simp only [Option.map_some, Node.view, content, hv, Disk.document]

theorem getVersion_view {root : Str} {fs : Disk} (h : Readable F root fs) {name : Str} (ho : Spec.OrdinaryName name)
    (v : Int) : Recap.getVersion root (fs.view F) name v = getVersion F root fs name v := by
  have hr : ∀ b, fs.at? (locate (filePath root name v)) = some (.file b) → Plain F b := by
    intro b hb
    rw [locate_filePath_any, locate_dirPath root ho, List.append_assoc] at hb
    exact h _ b hb
  rw [Recap.getVersion, getVersion, read_view hr]
  rfl

theorem get_view {root : Str} {fs : Disk} (h : Readable F root fs) {name : Str} (ho : Spec.OrdinaryName name)
    (version : Option Int) : Recap.get root (fs.view F) name version = get F root fs name version := by
  cases version with
  | some v => exact getVersion_view h ho v
  | none =>
    rw [Recap.get, get, latest_view]
    cases latest root fs name with
    | error e => rfl
    | ok o => cases o with
      | none => rfl
      | some v => exact getVersion_view h ho v

/-! ## Writing -/

theorem at?_write {p : Place} (hp : p ≠ []) (n : Node) (q : Place) (fs : Disk) :
    (fs.write p n).at? q = if q = p then some n else fs.at? q := by
  induction fs with
  | nil =>
    cases q with
    | nil => rw [if_neg (Ne.symm hp)]; rfl
    | cons c q => simp only [Disk.write, Disk.at?, eq_comm]
  | cons e rest ih =>
    obtain ⟨r, m⟩ := e
    cases q with
    | nil =>
      rw [if_neg (Ne.symm hp)]
      simp only [Disk.at?]
    | cons c q =>
      simp only [Disk.write]
      by_cases hr : r = p
      · rw [if_pos hr]
        subst hr
        simp only [Disk.at?]
        by_cases h : r = c :: q
        · simp [h]
        · simp [h, Ne.symm h]
      · rw [if_neg hr]
        simp only [Disk.at?, ih]
        by_cases h : r = c :: q
        · subst h; simp [hr]
        · simp [h]

theorem write_write (fs : FS) (p : Place) (m n : Recap.Node) : (fs.write p m).write p n = fs.write p n := by
  induction fs with
  | nil => simp [FS.write]
  | cons e rest ih =>
    obtain ⟨q, k⟩ := e
    by_cases h : q = p
    · simp [h, FS.write]
    · simp [h, FS.write, ih]

theorem content_nil : content F [] = .truncated := by
  have h : JsonText.loadBytes F [] = .error .decode := by
    have : utf8Decode [] = some [] := utf8Decode_utf8 []
    rw [JsonText.loadBytes, if_neg (by simp), this]
    rfl
  rw [content, h]

theorem openFile_view (fs : Disk) (path : Str) :
    (fs.view F).save path .truncated = (fs.openFile path).map (Disk.view F) := by
  rw [FS.save, Disk.openFile, at?_view, at?_view]
  cases fs.at? (locate path) with
  | none =>
    simp only [Option.map_none]
    cases fs.at? (locate path).dropLast with
    | none => simp only [Option.map_none, missing_view]; rfl
    | some n => cases n with
      | dir =>
        simp only [Option.map_some, Node.view, Except.map, write_view, content_nil]
      | file b => simp only [Option.map_some, Node.view, missing_view]; rfl
  | some n => cases n with
    | dir => rfl
    | file b => simp only [Option.map_some, Node.view, Except.map, write_view, content_nil]

theorem openFile_ok {fs fs' : Disk} {path : Str} (h : fs.openFile path = .ok fs') (hp : locate path ≠ []) :
    fs' = fs.write (locate path) (.file []) ∧ fs'.at? (locate path) = some (.file []) := by
  have key : fs' = fs.write (locate path) (.file []) := by
    unfold Disk.openFile at h
    split at h
    · cases h
    · cases h; rfl
    · split at h
      · cases h; rfl
      · cases h
  refine ⟨key, ?_⟩
  rw [key, at?_write hp, if_pos rfl]

/-- A document that is not a number. -/
def NotNumber (d : PyVal) : Prop := (∀ i, d ≠ .int i) ∧ ∀ m e, d ≠ .float m e

theorem content_take {enc : Char → List UInt8} (hF : JsonText.Spec.Lawful F) (he : JsonText.AsciiCompatible enc)
    {d : PyVal} (hd : Spec.Real d) (hn : NotNumber d) (n : Nat) :
    content F ((fileBytes F enc d).take n) =
      if n < (fileBytes F enc d).length then .truncated else .complete d := by
  unfold content
  split
  · rename_i v hv
    rw [if_neg, Content.complete.injEq]
    · by_cases h : n < (fileBytes F enc d).length
      · rw [fileBytes] at h hv
        rw [JsonText.loadBytes_cut hF he hd hn.1 hn.2 h] at hv
        cases hv
      · rw [List.take_of_length_le (by omega)] at hv
        rw [fileBytes, JsonText.loadBytes_dumps hF he hd] at hv
        cases hv
        rfl
    · intro h
      rw [fileBytes] at h hv
      rw [JsonText.loadBytes_cut hF he hd hn.1 hn.2 h] at hv
      cases hv
  · rename_i e hv
    rw [if_pos]
    apply Classical.byContradiction
    intro h
    rw [List.take_of_length_le (by omega), fileBytes, JsonText.loadBytes_dumps hF he hd] at hv
    cases hv

theorem plain_take {enc : Char → List UInt8} (hF : JsonText.Spec.Lawful F) (he : JsonText.AsciiCompatible enc)
    {d : PyVal} (hd : Spec.Real d) (hn : NotNumber d) (n : Nat) : Plain F ((fileBytes F enc d).take n) := by
  by_cases h : n < (fileBytes F enc d).length
  · exact .inr (JsonText.loadBytes_cut hF he hd hn.1 hn.2 h)
  · rw [List.take_of_length_le (by omega)]
    exact .inl ⟨d, JsonText.loadBytes_dumps hF he hd⟩

/-- How the states that the process goes through are seen. -/
theorem putStates_view {enc : Char → List UInt8} (hF : JsonText.Spec.Lawful F) (he : JsonText.AsciiCompatible enc)
    {root : Str} {fs : Disk} {name : Str} {t : RType} {version : Option Int}
    {v : Int} {made opened done : FS} {d : PyVal} (hd : toDict true true t = .ok d) (hr : Spec.Real d)
    (hn : NotNumber d)
    (h : Recap.putStates root (fs.view F) name t version = (.ok v, [fs.view F, made, opened, done])) :
    ∃ made' states, putStates F enc root fs name t version = (.ok v, fs :: made' :: states) ∧ made'.view F = made ∧
      (fs.mkdirs (dirPath root name) = .ok made') ∧
      states.length = (fileBytes F enc d).length + 1 ∧
      ∀ n, n ≤ (fileBytes F enc d).length → ∃ s, states[n]? = some s ∧
        s.view F = (if n < (fileBytes F enc d).length then opened else done) ∧
        ∃ opened', made'.openFile (filePath root name v) = .ok opened' ∧
        s = opened'.write (locate (filePath root name v)) (.file ((fileBytes F enc d).take n)) := by
  unfold Recap.putStates at h
  unfold putStates
  rw [nextVersion_view] at h
  cases hv : nextVersion root fs name version with
  | error e => rw [hv] at h; cases h
  | ok w =>
    rw [hv, hd] at h
    rw [hd]
    simp only at h ⊢
    unfold Recap.writeFile at h
    unfold writeFile
    have hm := makeDirs_view (F := F) (locate (dirPath root name)) fs []
    rw [FS.mkdirs, hm] at h
    rw [Disk.mkdirs]
    cases hmk : fs.makeDirs [] (locate (dirPath root name)) with
    | error e => rw [hmk] at h; cases h
    | ok made' =>
      rw [hmk] at h
      simp only [Except.map] at h ⊢
      rw [openFile_view] at h
      cases hop : made'.openFile (filePath root name w) with
      | error e => rw [hop] at h; cases h
      | ok opened' =>
        rw [hop] at h
        have hp : locate (filePath root name w) ≠ [] := by rw [locate_filePath_any]; simp
        obtain ⟨e1, e2⟩ := openFile_ok hop hp
        have hat : (opened'.view F).at? (locate (filePath root name w)) = some (.file .truncated) := by
          rw [at?_view, e2, Option.map_some, Node.view, content_nil]
        have hsave : (opened'.view F).save (filePath root name w) (.complete d) =
            .ok ((opened'.view F).write (locate (filePath root name w)) (.file (.complete d))) := by
          rw [FS.save, hat]
        simp only [Except.map, hsave, Prod.mk.injEq, Except.ok.injEq, List.cons.injEq, and_true, true_and] at h
        obtain ⟨rfl, rfl, rfl, rfl⟩ := h
        refine ⟨made', _, rfl, rfl, rfl, by simp, ?_⟩
        intro n hle
        refine ⟨_, by rw [List.getElem?_map, List.getElem?_range (by omega)]; rfl, ?_, opened', hop, rfl⟩
        rw [write_view, Node.view, content_take hF he hr hn]
        split
        · rw [e1, write_view, write_write, Node.view, content_nil]
        · rfl

/-! ## What files hold -/

theorem makeDirs_file {ps : List Str} {fs fs' : Disk} {acc : Place} (h : fs.makeDirs acc ps = .ok fs') {p : Place}
    {b : List UInt8} (hb : fs'.at? p = some (.file b)) : fs.at? p = some (.file b) := by
  induction ps generalizing fs acc with
  | nil => cases h; exact hb
  | cons q ps ih =>
    rw [Disk.makeDirs] at h
    split at h
    · exact ih h
    · cases h
    · have := ih h
      rw [at?_write (by simp)] at this
      split at this
      · cases this
      · exact this

theorem Readable.made {root : Str} {fs fs' : Disk} (h : Readable F root fs) {ps : List Str} {acc : Place}
    (hm : fs.makeDirs acc ps = .ok fs') : Readable F root fs' := fun q b hb => h q b (makeDirs_file hm hb)

theorem Readable.write {root : Str} {fs : Disk} (h : Readable F root fs) {p : Place} (hp : p ≠ []) {b : List UInt8}
    (hb : Plain F b) : Readable F root (fs.write p (.file b)) := by
  intro q c hc
  rw [at?_write hp] at hc
  split at hc
  · cases hc; exact hb
  · exact h q c hc

theorem plain_nil : Plain F [] := by
  refine .inr ?_
  have : utf8Decode [] = some [] := utf8Decode_utf8 []
  rw [JsonText.loadBytes, if_neg (by simp), this]
  rfl

/-! ## Calls -/

/-- One call of the storage API: its answer and the file system afterwards.  A process that stops
during a `put` has written some of the bytes. -/
def call (F : Floats) (enc : Char → List UInt8) (root : Str) (fs : Disk) : Spec.Call → Spec.Answer × Disk
  | .put name t version => (.put (put F enc root fs name t version).1, (put F enc root fs name t version).2)
  | .get name version => (.get (get F root fs name version), fs)
  | .versions name => (.versions (versions root fs name), fs)
  | .latest name => (.latest (latest root fs name), fs)
  | .ls => (.ls (lsNames root fs), fs)
  | .crash name t version step =>
    (.crash, ((putStates F enc root fs name t version).2[step]?).getD (put F enc root fs name t version).2)

/-- A sequence of calls. -/
def calls (F : Floats) (enc : Char → List UInt8) (root : Str) (fs : Disk) : List Spec.Call → List Spec.Answer × Disk
  | [] => ([], fs)
  | c :: cs =>
    let r := call F enc root fs c
    let rs := calls F enc root r.2 cs
    (r.1 :: rs.1, rs.2)

/-- The documents of the types that a call stores are Python values and no numbers. -/
def Sensible : Spec.Call → Prop
  | .put _ t _ | .crash _ t _ _ => ∀ d, toDict true true t = .ok d → Spec.Real d ∧ NotNumber d
  | _ => True

theorem putStates_error {enc : Char → List UInt8} {root : Str} {fs : Disk} {name : Str} {t : RType}
    {version : Option Int} {e : PyErr} (h : toDict true true t = .error e)
    (hp : Recap.putStates root (fs.view F) name t version = (.error (.py e), [fs.view F])) :
    putStates F enc root fs name t version = (.error (.py e), [fs]) := by
  unfold Recap.putStates at hp
  unfold putStates
  rw [nextVersion_view, h] at hp
  rw [h]
  cases hv : nextVersion root fs name version with
  | error e' =>
    rw [hv] at hp
    simp only [Prod.mk.injEq, Except.error.injEq, and_true] at hp ⊢
    exact hp
  | ok v => rfl

/-- A process that writes the bytes of a document one after another does what one does that
writes it at once. -/
theorem call_spec {enc : Char → List UInt8} (hF : JsonText.Spec.Lawful F) (he : JsonText.AsciiCompatible enc)
    {root : Str} {fs : Disk} {s : Spec.Store} (h : Rep root (fs.view F) s) (hr : Readable F root fs)
    (c : Spec.Call) (ho : Spec.OrdinaryCall c) (hc : Sensible c) :
    ∃ s', Spec.Allowed s c (call F enc root fs c).1 s' ∧ Rep root ((call F enc root fs c).2.view F) s' ∧
      Readable F root (call F enc root fs c).2 := by
  cases c with
  | get name version =>
    have := h.call_spec (.get name version) ho
    simp only [Recap.call, get_view hr ho] at this
    obtain ⟨s', h1, h2⟩ := this
    exact ⟨s', h1, h2, hr⟩
  | versions name =>
    have := h.call_spec (.versions name) ho
    simp only [Recap.call, versions_view] at this
    obtain ⟨s', h1, h2⟩ := this
    exact ⟨s', h1, h2, hr⟩
  | latest name =>
    have := h.call_spec (.latest name) ho
    simp only [Recap.call, latest_view] at this
    obtain ⟨s', h1, h2⟩ := this
    exact ⟨s', h1, h2, hr⟩
  | ls =>
    have := h.call_spec .ls ho
    simp only [Recap.call, lsNames_view] at this
    obtain ⟨s', h1, h2⟩ := this
    exact ⟨s', h1, h2, hr⟩
  | put name t version =>
    have hp := h.putStates_spec ho t version
    simp only [call, put, Spec.Allowed]
    split at hp
    · rename_i e hd
      rw [hd]
      simp only [putStates_error hd hp]
      exact ⟨s, by simp, h, hr⟩
    · rename_i d hd
      obtain ⟨hreal, hnum⟩ := hc d hd
      obtain ⟨v, made, opened, done, h1, h2, _, _, h5⟩ := hp
      obtain ⟨made', states, e1, _, hmk, hlen, hst⟩ := putStates_view (enc := enc) hF he hd hreal hnum h2
      obtain ⟨st, g1, g2, opened', g3, g4⟩ := hst _ (Nat.le_refl _)
      have hlast : (fs :: made' :: states).getLastD fs = st := by
        have hne : states ≠ [] := by intro h0; rw [h0] at hlen; simp at hlen
        have e2 : states.getLast? = some st := by
          rw [List.getLast?_eq_getElem?, hlen, Nat.add_sub_cancel]
          exact g1
        simp [List.getLastD_eq_getLast?, List.getLast?_cons, e2]
      rw [hd]
      simp only [e1, hlast]
      rw [if_neg (by omega)] at g2
      refine ⟨_, ⟨v, h1, rfl, rfl⟩, by rw [g2]; exact h5, ?_⟩
      have hp : locate (filePath root name v) ≠ [] := by rw [locate_filePath_any]; simp
      rw [g4]
      exact Readable.write (by rw [(openFile_ok g3 hp).1]; exact (hr.made hmk).write hp plain_nil) hp
        (plain_take hF he hreal hnum _)
  | crash name t version step =>
    have hp := h.putStates_spec ho t version
    simp only [call, put, Spec.Allowed]
    split at hp
    · rename_i e hd
      rw [hd]
      simp only [putStates_error hd hp]
      refine ⟨s, rfl, ?_⟩
      cases step <;> exact ⟨h, hr⟩
    · rename_i d hd
      obtain ⟨hreal, hnum⟩ := hc d hd
      obtain ⟨v, made, opened, done, h1, h2, h3, h4, h5⟩ := hp
      obtain ⟨made', states, e1, e3, hmk, hlen, hst⟩ := putStates_view (enc := enc) hF he hd hreal hnum h2
      have hp : locate (filePath root name v) ≠ [] := by rw [locate_filePath_any]; simp
      have key : ∀ {n : Nat} {st : Disk}, states[n]? = some st → n ≤ (fileBytes F enc d).length →
          ∃ s', (s' = s.store name v .truncated ∨ s' = s.store name v (.complete d)) ∧ Rep root (st.view F) s' ∧
            Readable F root st := by
        intro n st hn hle
        obtain ⟨st', g1, g2, opened', g3, g4⟩ := hst n hle
        rw [hn] at g1
        cases g1
        have hread : Readable F root st := by
          rw [g4]
          exact Readable.write (by rw [(openFile_ok g3 hp).1]; exact (hr.made hmk).write hp plain_nil) hp
            (plain_take hF he hreal hnum _)
        split at g2
        · exact ⟨_, .inl rfl, by rw [g2]; exact h4, hread⟩
        · exact ⟨_, .inr rfl, by rw [g2]; exact h5, hread⟩
      obtain ⟨last, g1, -⟩ := hst _ (Nat.le_refl _)
      have hlast : (fs :: made' :: states).getLastD fs = last := by
        have e2 : states.getLast? = some last := by
          rw [List.getLast?_eq_getElem?, hlen, Nat.add_sub_cancel]
          exact g1
        simp [List.getLastD_eq_getLast?, List.getLast?_cons, e2]
      rw [hd]
      simp only [e1, hlast]
      match step with
      | 0 => exact ⟨s, ⟨v, h1, .inl rfl⟩, h, hr⟩
      | 1 =>
        refine ⟨_, ⟨v, h1, .inr (.inl rfl)⟩, ?_, hr.made hmk⟩
        show Rep root (made'.view F) _
        rw [e3]
        exact h3
      | n + 2 =>
        simp only [List.getElem?_cons_succ]
        cases hn : states[n]? with
        | none =>
          obtain ⟨s', k1, k2, k3⟩ := key g1 (Nat.le_refl _)
          refine ⟨s', ⟨v, h1, ?_⟩, k2, k3⟩
          rcases k1 with k1 | k1
          · exact .inr (.inr (.inl k1))
          · exact .inr (.inr (.inr k1))
        | some st =>
          have hlt : n < states.length := (List.getElem?_eq_some_iff.mp hn).1
          obtain ⟨s', k1, k2, k3⟩ := key hn (by omega)
          refine ⟨s', ⟨v, h1, ?_⟩, k2, k3⟩
          rcases k1 with k1 | k1
          · exact .inr (.inr (.inl k1))
          · exact .inr (.inr (.inr k1))

theorem calls_spec {enc : Char → List UInt8} (hF : JsonText.Spec.Lawful F) (he : JsonText.AsciiCompatible enc)
    {root : Str} : ∀ (cs : List Spec.Call) {fs : Disk} {s : Spec.Store}, Rep root (fs.view F) s →
    Readable F root fs → (∀ c ∈ cs, Spec.OrdinaryCall c) → (∀ c ∈ cs, Sensible c) →
    ∃ s', Spec.AllowedAll s cs (calls F enc root fs cs).1 s' ∧ Rep root ((calls F enc root fs cs).2.view F) s' ∧
      Readable F root (calls F enc root fs cs).2
  | [], _, s, h, hr, _, _ => ⟨s, rfl, h, hr⟩
  | c :: cs, _, _, h, hr, ho, hs => by
    obtain ⟨s1, h1, r1, k1⟩ := call_spec hF he h hr c (ho c (by simp)) (hs c (by simp))
    obtain ⟨s2, h2, r2, k2⟩ := calls_spec hF he cs r1 k1 (fun c hc => ho c (List.mem_cons_of_mem _ hc))
      (fun c hc => hs c (List.mem_cons_of_mem _ hc))
    exact ⟨s2, ⟨s1, h1, h2⟩, r2, k2⟩

/-! ## New storages -/

/-- A file system in which paths are unique and everything is in a directory, with nothing at
or below `root`, after a `RegistryStorage` for `root` has been made. -/
def NewStorage (root : Str) (fs : Disk) : Prop :=
  ∃ before : Disk, (before.map (·.1)).Nodup ∧
    (∀ p c n, before.at? (p ++ [c]) = some n → before.at? p = some .dir) ∧
    (∀ c, before.at? (locate root ++ [c]) = none) ∧ openStorage root before = .ok fs

theorem NewStorage.view {root : Str} {fs : Disk} (h : NewStorage root fs) : Recap.NewStorage root (fs.view F) := by
  obtain ⟨before, h1, h2, h3, h4⟩ := h
  refine ⟨before.view F, ?_, ?_, ?_, ?_⟩
  · rw [Disk.view, List.map_map]
    exact h1
  · intro p c n hn
    rw [at?_view] at hn ⊢
    obtain ⟨m, hm, -⟩ := Option.map_eq_some_iff.mp hn
    rw [h2 p c m hm]
    rfl
  · intro c
    rw [at?_view, h3]
    rfl
  · rw [Recap.openStorage, FS.mkdirs, makeDirs_view]
    rw [openStorage, Disk.mkdirs] at h4
    rw [h4]
    rfl

theorem NewStorage.readable {root : Str} {fs : Disk} (h : NewStorage root fs) : Readable F root fs := by
  have hrep := (h.view (F := F)).rep
  intro q b hb
  have hv : (fs.view F).at? (locate root ++ q) = some (.file (content F b)) := by rw [at?_view, hb]; rfl
  cases q with
  | nil =>
    rw [List.append_nil] at hv
    rw [hrep.root_dir] at hv
    cases hv
  | cons c q =>
    exfalso
    have e : locate root ++ c :: q = (locate root ++ [c]) ++ q := by simp
    obtain ⟨n, hn⟩ : ∃ n, (fs.view F).at? (locate root ++ [c]) = some n := by
      by_cases hq : q = []
      · subst hq; exact ⟨_, hv⟩
      · rw [e] at hv
        exact ⟨_, hrep.tree.above q _ _ hq hv⟩
    obtain ⟨_, _, hk, _⟩ := (hrep.dirs c n).mp hn
    exact hk

end Recap.Bytes
