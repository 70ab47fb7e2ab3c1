import Verif.CompactFaithful

/-! # Stored types come back equal: C36 and C38 -/

set_option autoImplicit false

namespace Recap

open Spec

/-- A decoded JSON body has no duplicate keys. -/
def RealBody : Body → Prop
  | .json v => Real v
  | _ => True

/-- The parts of `Faithful` that do not hold for all types that can be sent. -/
structure Storable (t : RType) : Prop where
  canonical : Canonical t
  keys : PlainKeys t
  separate : Separate true (aliased t)

theorem Storable.faithful {t : RType} (h : Storable t) {ct : Option Str} {body : Body} (hb : RealBody body)
    (ht : requestToType ct body = .ok t) : Faithful t := by
  have key : ∀ v, Real v → parse v = .ok t → Faithful t := by
    intro v hv hp
    unfold parse at hp
    cases g : fromDict v newRegistry with
    | error e => rw [g] at hp; cases hp
    | ok r =>
      rw [g] at hp
      cases hp
      obtain ⟨h1, h2⟩ := C71_parsed_types_well_formed v hv _ _ _ g
      exact ⟨h1, h2, h.canonical, h.keys, h.separate⟩
  unfold requestToType at ht
  split at ht
  · cases body with
    | notUtf8 => cases ht
    | json v =>
      simp only [bodyToType] at ht
      cases g : parse v with
      | error e => rw [g] at ht; cases ht
      | ok u => rw [g] at ht; cases ht; exact key v hb g
    | text s =>
      simp only [bodyToType] at ht
      cases g : parse (.str s) with
      | error e => rw [g] at ht; cases ht
      | ok u => rw [g] at ht; cases ht; exact key (.str s) trivial g
  · cases ht

/-- C36 for canonical types in which aliases are kept apart.  After a successful POST or PUT, whatever
happens next, GET of that version answers with a document that reads as the type that was sent, with references
in place of the types that built-in aliases stand for. -/
theorem C36_get_equal_partial (root : Str) (fs : FS) (hfs : Mounted root fs) (r : Request) (t : RType) (name : Str)
    (v : Int) (ct : Option Str) (body : Body) (hr : r = .post name ct body ∨ r = .put name v ct body)
    (ht : requestToType ct body = .ok t) (hb : RealBody body) (hst : Storable t)
    (hs : (serve root fs r).1 = .stored v) (rs : List Request) :
    ∃ d t', (serve root (serveAll root (serve root fs r).2 rs).2 (.version name v)).1 = .schema d v ∧
      parse d = .ok t' ∧ RType.pyEq t' (aliased t) = true := by
  obtain ⟨d, t', d', t'', h1, h2, h3, h4, h5⟩ := (hst.faithful hb ht).twice
  have hr' : (∃ ct body, r = .post name ct body ∧ requestToType ct body = .ok t) ∨
      ∃ ct body, r = .put name v ct body ∧ requestToType ct body = .ok t := by
    rcases hr with e | e
    · exact .inl ⟨ct, body, e, ht⟩
    · exact .inr ⟨ct, body, e, ht⟩
  obtain ⟨e, g1, g2, -⟩ := C36_get_returns_stored_partial root fs hfs r t name v hr' hs rs
  rw [h1] at g1
  cases g1
  exact ⟨d', t'', g2 t' d' h2 h3, h4, h5⟩

/-- Every type that a request asks to store is storable. -/
def StorableRequest : Request → Prop
  | .post _ ct body => RealBody body ∧ ∀ t, requestToType ct body = .ok t → Storable t
  | .put _ _ ct body => RealBody body ∧ ∀ t, requestToType ct body = .ok t → Storable t
  | _ => True

/-- A stored version has been stored by one of the requests. -/
theorem storedIn_split {root : Str} : ∀ {rs : List Request} {fs : FS}, Mounted root fs → ∀ {name : Str} {v : Int},
    (name, v) ∈ storedIn root fs rs → ∃ pre r post ct body, rs = pre ++ r :: post ∧
      (r = .post name ct body ∨ r = .put name v ct body) ∧
      (serve root (serveAll root fs pre).2 r).1 = .stored v ∧ (∃ t, requestToType ct body = .ok t) ∧
      serveAll root (serve root (serveAll root fs pre).2 r).2 post = (((serveAll root fs rs).1.drop (pre.length + 1)),
        (serveAll root fs rs).2)
  | [], fs, _, name, v, h => by simp [storedIn] at h
  | r :: rs, fs, hm, name, v, h => by
    have hin : storedIn root fs (r :: rs) = (storedBy r (Recap.serve root fs r).1).toList ++
        storedIn root (Recap.serve root fs r).2 rs := by
      simp only [storedIn, Recap.serveAll, List.zip_cons_cons, List.filterMap_cons]
      cases storedBy r (Recap.serve root fs r).1 <;> rfl
    rw [hin, List.mem_append] at h
    rcases h with h | h
    · have h : storedBy r (Recap.serve root fs r).1 = some (name, v) := by simpa using h
      have store : ∀ ver ct body, (Recap.storeBody root fs name ver ct body).1 = .stored v →
          ∃ t, requestToType ct body = .ok t := by
        intro ver ct body hs
        unfold Recap.storeBody at hs
        cases g : requestToType ct body with
        | error c => rw [g] at hs; cases hs
        | ok t => exact ⟨t, rfl⟩
      cases r with
      | post n ct body =>
        cases hs : (Recap.serve root fs (.post n ct body)).1 <;> rw [hs] at h <;> simp [storedBy] at h
        obtain ⟨rfl, rfl⟩ := h
        refine ⟨[], _, rs, ct, body, rfl, .inl rfl, hs, ?_, by simp [Recap.serveAll]⟩
        unfold Recap.serve at hs
        rw [hm.openStorage] at hs
        exact store _ _ _ hs
      | put n w ct body =>
        cases hs : (Recap.serve root fs (.put n w ct body)).1 <;> rw [hs] at h <;> simp [storedBy] at h
        obtain ⟨h0, h1⟩ := h
        subst h0
        rw [h1] at hs
        have hs' := hs
        unfold Recap.serve at hs'
        rw [hm.openStorage] at hs'
        simp only [handle] at hs'
        have hw : w = v ∧ ∃ t, requestToType ct body = .ok t := by
          split at hs'
          · rename_i e he
            unfold putCheck at he
            split at he <;> cases he <;> cases hs'
          · refine ⟨?_, store _ _ _ hs'⟩
            rcases hm.storeBody n (some w) ct body with ⟨_, e, _⟩ | ⟨t', x, d, _, hx, _, e, _⟩
            · rw [e] at hs'; cases hs'
            · rw [e] at hs'
              cases hs'
              unfold nextVersion at hx
              cases hx
              rfl
        obtain ⟨rfl, ht⟩ := hw
        exact ⟨[], _, rs, ct, body, rfl, .inr rfl, hs, ht, by simp [Recap.serveAll]⟩
      | _ => simp [storedBy] at h
    · obtain ⟨pre, r', post, ct, body, rfl, h2, h3, h4, h5⟩ := storedIn_split (hm.serve r).1 h
      exact ⟨r :: pre, r', post, ct, body, rfl, h2, h3, h4, h5⟩

/-- C38 for storable types: after any history of requests on a new storage, GET of a stored version answers with
200, and GET of any other version with 404. -/
theorem C38_known_is_200_partial (root : Str) (fs : FS) (hfs : NewStorage root fs) (rs : List Request)
    (hrs : ∀ r ∈ rs, OrdinaryRequest r) (hst : ∀ r ∈ rs, StorableRequest r) (name : Str) (v : Int)
    (ho : OrdinaryName name) :
    ((name, v) ∉ storedIn root fs rs →
      (serve root (serveAll root fs rs).2 (.version name v)).1 = .status 404) ∧
    ((name, v) ∈ storedIn root fs rs →
      ∃ d, (serve root (serveAll root fs rs).2 (.version name v)).1 = .schema d v) := by
  refine ⟨((C38_unknown_is_404_partial root fs hfs rs hrs name ho).1 v).mpr, fun h => ?_⟩
  obtain ⟨pre, r, post, ct, body, rfl, h2, h3, ⟨t, h4⟩, h5⟩ := storedIn_split hfs.rep.mounted h
  have hm := (Mounted.serveAll pre hfs.rep.mounted).1
  have hs : RealBody body ∧ ∀ t, requestToType ct body = .ok t → Storable t := by
    have := hst r (by simp)
    rcases h2 with rfl | rfl <;> exact this
  obtain ⟨d, t', g1, -⟩ := C36_get_equal_partial root _ hm r t name v ct body h2 h4 hs.1 (hs.2 t h4) h3 post
  rw [h5] at g1
  exact ⟨d, g1⟩

/-- The hypotheses hold for a document with an alias, an optional nested type with an alias, and a reference. -/
def storableDocument : PyVal :=
  .dict [("type", .str "struct"), ("alias", .str "shop.Order"),
    ("fields", .list [.dict [("type", .str "int"), ("bits", .int 32), ("name", .str "id")],
      .dict [("type", .str "struct"), ("alias", .str "shop.Address"), ("name", .str "to"), ("optional", .bool true),
        ("fields", .list [.dict [("type", .str "string"), ("bytes", .int 50), ("name", .str "street")]])],
      .dict [("type", .str "list"), ("values", .str "shop.Address"), ("name", .str "via")]])]

/-- What is read from it. -/
def storableType : RType :=
  .struct [.int (.int 32) (.bool true) { extra := [("name", .str "id")] },
    .union [.null {}, .struct [.string (.int 50) (.bool true) { extra := [("name", .str "street")] }]
      { alias := .str "shop.Address" }] { extra := [("name", .str "to"), ("default", .none)] },
    .list (.proxy .none { alias := .str "shop.Address" }) .none (.bool true) { extra := [("name", .str "via")] }]
    { alias := .str "shop.Order" }

theorem storable_sample : requestToType none (.json storableDocument) = .ok storableType ∧ Storable storableType := by
  refine ⟨by decide +kernel, canonical_of_check (by decide +kernel), ?_, separate_of_check (by decide +kernel)⟩
  exact (plain_of_check (t := storableType) (by decide +kernel)
    (by simp [storableType, Bounded, BoundedAll, SizeOK, NumBetween, PyVal.truthy])).keys

example : Mounted sampleRoot sampleFs ∧ RealBody (.json storableDocument) ∧
    (∃ t, requestToType none (.json storableDocument) = .ok t ∧ Storable t) ∧
    (serve sampleRoot sampleFs (.post "orders".toList none (.json storableDocument))).1 = .stored 1 := by
  refine ⟨sampleFs_mounted, ?_, ⟨_, storable_sample⟩, by decide +kernel⟩
  simp [RealBody, storableDocument, Real, RealPairs, RealAll]

/-- A document that is stored without its alias, which keeps the attribute `values` from being taken for a type. -/
def forgottenAlias : PyVal :=
  .dict [("type", .str "union"), ("types", .list [.str "null", .str "bool"]), ("alias", .str "com.Flag"),
    ("default", .none), ("values", .dict [("yes", .int 1)])]

/-- C38 is false: the document is stored, and every GET of it answers 500. -/
theorem C38_known_refuted : ¬ C38_statement := by
  intro h
  have ho : OrdinaryName "orders".toList := ⟨by decide, by decide, by decide⟩
  obtain ⟨-, h2⟩ := h sampleRoot sampleFs sampleFs_new [.post "orders".toList none (.json forgottenAlias)]
    (fun r hr => by rw [List.mem_singleton.mp hr]; exact ho) "orders".toList 1 ho
  obtain ⟨d, h3⟩ := h2 (by decide +kernel)
  have h4 : (serve sampleRoot (serveAll sampleRoot sampleFs
      [.post "orders".toList none (.json forgottenAlias)]).2 (.version "orders".toList 1)).1 = .status 500 := by
    decide +kernel
  rw [h4] at h3
  cases h3

end Recap
