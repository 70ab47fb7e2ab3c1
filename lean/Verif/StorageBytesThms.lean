import Verif.StorageBytesLemmas
import Verif.JsonTextFloats
import Verif.CompactStable

/-! # Properties of the schema storage with the bytes of files: C124 -/

set_option autoImplicit false

namespace Recap.Bytes

open Recap (Str Place StoreErr RType locate dirPath filePath sampleInt sampleRef)
open JsonText (Floats AsciiCompatible exactFloats exactFloats_lawful utf8_compatible)
open JsonText.Spec (Lawful)
open Spec (Call Answer OrdinaryName OrdinaryCall)

/-- The type consists of Python values, and its document is not a number.  (The document of a reference
is its name, which `from_dict` only accepts if it is a string.) -/
def Storable (t : RType) : Prop :=
  Spec.RealType t ∧ ∀ d, toDict true true t = .ok d → (∀ i, d ≠ .int i) ∧ ∀ m e, d ≠ .float m e

/-- The type that a call stores is storable. -/
def StorableCall : Call → Prop
  | .put _ t _ | .crash _ t _ _ => Storable t
  | _ => True

theorem StorableCall.sensible {c : Call} (h : StorableCall c) : Sensible c := by
  cases c with
  | put name t version => exact fun d hd => ⟨real_toDict h.1 hd, h.2 d hd⟩
  | crash name t version step => exact fun d hd => ⟨real_toDict h.1 hd, h.2 d hd⟩
  | _ => trivial

/-- **C124** Every sequence of calls on a new storage, with processes that stop at any byte of what `put` writes,
is answered as the abstract store allows: after such a stop a version is as it was before, unreadable, or complete. -/
theorem C124_bytes_refine_map {F : Floats} (hF : Lawful F) {enc : Char → List UInt8} (he : AsciiCompatible enc)
    (root : Str) (fs : Disk) (hfs : NewStorage root fs) (cs : List Call) (ho : ∀ c ∈ cs, OrdinaryCall c)
    (hs : ∀ c ∈ cs, StorableCall c) : ∃ s', Spec.AllowedAll .empty cs (calls F enc root fs cs).1 s' := by
  obtain ⟨s', h, -⟩ := calls_spec hF he cs hfs.view.rep hfs.readable ho fun c hc => (hs c hc).sensible
  exact ⟨s', h⟩

/-- The file systems that calls with ordinary names and storable types and crashes lead to. -/
def Reachable (F : Floats) (enc : Char → List UInt8) (root : Str) (fs : Disk) : Prop :=
  ∃ fs0 cs, NewStorage root fs0 ∧ (∀ c ∈ cs, OrdinaryCall c) ∧ (∀ c ∈ cs, StorableCall c) ∧
    fs = (calls F enc root fs0 cs).2

theorem Reachable.rep {F : Floats} (hF : Lawful F) {enc : Char → List UInt8} (he : AsciiCompatible enc) {root : Str}
    {fs : Disk} (h : Reachable F enc root fs) : (∃ s, Rep root (fs.view F) s) ∧ Readable F root fs := by
  obtain ⟨fs0, cs, h0, ho, hs, rfl⟩ := h
  obtain ⟨s', -, h1, h2⟩ := calls_spec hF he cs h0.view.rep h0.readable ho fun c hc => (hs c hc).sensible
  exact ⟨⟨s', h1⟩, h2⟩

/-- **C124, part of a file** If a file holds only the beginning of what `put` writes for a type, `get` raises
`JSONDecodeError`: it never returns a type, and never says that there is none. -/
theorem C124_torn_write {F : Floats} (hF : Lawful F) {enc : Char → List UInt8} (he : AsciiCompatible enc)
    (root : Str) (fs : Disk) (name : Str) (v : Int) {t : RType} (ht : Storable t) {d : PyVal}
    (hd : toDict true true t = .ok d) {n : Nat} (hn : n < (fileBytes F enc d).length)
    (hat : fs.at? (locate (filePath root name v)) = some (.file ((fileBytes F enc d).take n))) :
    get F root fs name (some v) = .error .jsonDecode := by
  rw [get, getVersion, Disk.read, hat]
  simp only [Disk.document]
  rw [fileBytes, JsonText.loadBytes_cut hF he (real_toDict ht.1 hd) (ht.2 d hd).1 (ht.2 d hd).2 hn]

/-- **C124, the whole file** If a file holds what `put` writes for a type, `get` parses its document. -/
theorem C124_whole_write {F : Floats} (hF : Lawful F) {enc : Char → List UInt8} (he : AsciiCompatible enc)
    (root : Str) (fs : Disk) (name : Str) (v : Int) {t : RType} (ht : Spec.RealType t) {d : PyVal}
    (hd : toDict true true t = .ok d)
    (hat : fs.at? (locate (filePath root name v)) = some (.file (fileBytes F enc d))) :
    get F root fs name (some v) = match parse d with
      | .error e => .error (.py e)
      | .ok t' => .ok (some (t', v)) := by
  rw [get, getVersion, Disk.read, hat]
  simp only [Disk.document]
  rw [fileBytes, JsonText.loadBytes_dumps hF he (real_toDict ht hd)]
  simp only
  rfl

/-- **C124, readers** Whoever reads while a `put` is writing gets, for the version that is being written, what was
there before, a `JSONDecodeError` or the new type; and what was there before for every other version. -/
theorem C124_readers {F : Floats} (hF : Lawful F) {enc : Char → List UInt8} (he : AsciiCompatible enc) {root : Str}
    {fs : Disk} (hfs : Reachable F enc root fs) {name : Str} (ho : OrdinaryName name) {t : RType} (ht : Storable t)
    (version : Option Int) {st : Disk} (hst : st ∈ (putStates F enc root fs name t version).2)
    (name' : Str) (ho' : OrdinaryName name') (v' : Int) :
    get F root st name' (some v') = get F root fs name' (some v') ∨
      ∃ d, toDict true true t = .ok d ∧ name' = name ∧ (put F enc root fs name t version).1 = .ok v' ∧
        (get F root st name' (some v') = .error .jsonDecode ∨
          get F root st name' (some v') = match parse d with
            | .error e => .error (.py e)
            | .ok t' => .ok (some (t', v'))) := by
  obtain ⟨⟨s, h⟩, hr⟩ := hfs.rep hF he
  have hp := h.putStates_spec ho t version
  split at hp
  · rename_i e hd
    rw [putStates_error hd hp, List.mem_singleton] at hst
    rw [hst]
    exact .inl rfl
  · rename_i d hd
    have hreal := real_toDict ht.1 hd
    have hnum := ht.2 d hd
    obtain ⟨v, made, opened, done, h1, h2, h3, h4, h5⟩ := hp
    obtain ⟨made', states, e1, e3, hmk, hlen, hget⟩ := putStates_view (enc := enc) hF he hd hreal hnum h2
    have hpath : locate (filePath root name v) ≠ [] := by rw [locate_filePath_any]; simp
    have hput : (put F enc root fs name t version).1 = .ok v := by rw [put, e1]
    rw [e1] at hst
    have old : get F root fs name' (some v') = Recap.get root (fs.view F) name' (some v') := (get_view hr ho' _).symm
    rw [old, Recap.get, h.getVersion_spec ho']
    rcases List.mem_cons.mp hst with rfl | hst
    · left
      rw [← get_view hr ho', Recap.get, h.getVersion_spec ho']
    rcases List.mem_cons.mp hst with rfl | hst
    · left
      rw [← get_view (hr.made hmk) ho', Recap.get, e3, h3.getVersion_spec ho']
      rfl
    obtain ⟨n, hn⟩ := List.mem_iff_getElem?.mp hst
    have hlt : n < states.length := (List.getElem?_eq_some_iff.mp hn).1
    obtain ⟨st', g1, g2, opened', g3, g4⟩ := hget n (by omega)
    rw [hn] at g1
    cases g1
    have hread : Readable F root st := by
      rw [g4]
      exact Readable.write (by rw [(openFile_ok g3 hpath).1]; exact (hr.made hmk).write hpath plain_nil) hpath
        (plain_take hF he hreal hnum _)
    rw [← get_view hread ho', Recap.get, g2]
    by_cases hk : name' = name ∧ v' = v
    · right
      obtain ⟨rfl, rfl⟩ := hk
      refine ⟨d, hd, rfl, hput, ?_⟩
      split
      · left
        rw [h4.getVersion_spec ho']
        simp [Spec.Store.store, Spec.Store.reading]
      · right
        rw [h5.getVersion_spec ho']
        simp only [Spec.Store.store, and_self, if_true, Spec.Store.reading]
        rfl
    · left
      split
      · rw [h4.getVersion_spec ho']
        simp only [Spec.Store.store, if_neg hk]
      · rw [h5.getVersion_spec ho']
        simp only [Spec.Store.store, if_neg hk]

/-! ## Examples -/

/-- A file system with an empty directory `/data`. -/
def sampleDisk : Disk := [(["data".toList], .dir)]

theorem sampleDisk_new : NewStorage "/data".toList sampleDisk := by
  refine ⟨[], by simp, ?_, ?_, by decide +kernel⟩
  · intro p c n h
    cases p <;> simp [Disk.at?] at h
  · intro c
    cases h : locate "/data".toList <;> simp [Disk.at?]

theorem sampleInt_storable : Storable sampleInt := by
  constructor
  · intro u hu
    cases hu
    refine ⟨?_, ?_, ?_, ?_, ?_⟩ <;> simp [sampleInt, RType.attrs, Spec.Real, Spec.RealPairs, Spec.params]
  · intro d hd
    have e : toDict true true sampleInt = .ok (.str "int32") := by decide +kernel
    rw [e] at hd
    cases hd
    simp

/-- The calls of a process that stops after five of the seven bytes of the text `"int32"`. -/
def sampleCalls : List Call :=
  [.put "a".toList sampleInt none, .crash "a".toList sampleInt none 7, .get "a".toList none,
    .get "a".toList (some 1), .versions "a".toList]

example : (∀ c ∈ sampleCalls, OrdinaryCall c) ∧ ∀ c ∈ sampleCalls, StorableCall c := by
  constructor
  · intro c hc
    simp only [sampleCalls, List.mem_cons, List.not_mem_nil, or_false] at hc
    rcases hc with rfl | rfl | rfl | rfl | rfl <;> exact ⟨by decide, by decide, by decide⟩
  · intro c hc
    simp only [sampleCalls, List.mem_cons, List.not_mem_nil, or_false] at hc
    rcases hc with rfl | rfl | rfl | rfl | rfl <;> first | exact sampleInt_storable | trivial

/-- The file system after these calls. -/
def sampleAfter : Disk := (calls exactFloats String.utf8EncodeChar "/data".toList sampleDisk sampleCalls).2

/-- The second version is unreadable, the first one is still there. -/
example : versions "/data".toList sampleAfter "a".toList = .ok (some [1, 2]) := by decide +kernel

example : get exactFloats "/data".toList sampleAfter "a".toList none = .error .jsonDecode := by decide +kernel

example : get exactFloats "/data".toList sampleAfter "a".toList (some 1) = .ok (some (sampleRef, 1)) := by
  decide +kernel

end Recap.Bytes
