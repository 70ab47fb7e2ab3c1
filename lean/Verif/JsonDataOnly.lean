import Verif.JsonDataWrite

/-!
# Only values of a type are valid against the written schema, apart from ranges and lengths

C132.
-/

set_option autoImplicit false

namespace Recap.JsonData

open Json
open Json.Spec (nameOf OptionalField defsOf Inside Spans IsReference Builtin requiredNames)

variable {refs : String → PyVal → Prop} {live : Registry}

theorem convertFields_keep {f : RType → Except PyErr Dict} {ts : List RType} {props props' : Dict}
    {req req' : List PyVal} (h : convertFields f ts props req = .ok (props', req')) {n : String}
    (hn : ∀ t ∈ ts, nameOf t ≠ some (.str n)) :
    Dict.get? props' n = Dict.get? props n ∧ ∀ x ∈ req, x ∈ req' := by
  induction ts generalizing props req with
  | nil => cases h; exact ⟨rfl, fun _ hx => hx⟩
  | cons t ts ih =>
    simp only [convertFields] at h
    split at h
    · rename_i name hname
      split at h
      · cases h
      · obtain ⟨d, hd, h⟩ := ok_bind h
        obtain ⟨h1, h2⟩ := ih h (fun t' ht' => hn t' (by simp [ht']))
        have hne : name ≠ n := by
          rintro rfl
          exact hn t (by simp) hname
        refine ⟨by rw [h1, Dict.get?_set_ne _ _ hne], fun x hx => h2 x ?_⟩
        split
        · exact hx
        · exact List.mem_append_left _ hx
    · split at h <;> cases h
    · cases h

theorem convertFields_req {f : RType → Except PyErr Dict} {ts : List RType} {props props' : Dict}
    {req req' : List PyVal} (h : convertFields f ts props req = .ok (props', req')) : ∀ x ∈ req, x ∈ req' := by
  have := (convertFields_ok h).1
  intro x hx
  rw [this]
  exact List.mem_append_left _ hx

theorem convertFields_each {f : RType → Except PyErr Dict} {ts : List RType} {props props' : Dict}
    {req req' : List PyVal} (h : convertFields f ts props req = .ok (props', req')) (hn : (ts.map nameOf).Nodup)
    {t : RType} (ht : t ∈ ts) : ∃ n d, nameOf t = some (.str n) ∧ f t = .ok d ∧
      Dict.get? props' n = some (.dict d) ∧ (¬OptionalField t → .str n ∈ req') := by
  induction ts generalizing props req with
  | nil => cases ht
  | cons u ts ih =>
    simp only [convertFields] at h
    simp only [List.map_cons, List.nodup_cons] at hn
    split at h
    · rename_i name hname
      split at h
      · cases h
      · obtain ⟨d, hd, h⟩ := ok_bind h
        rcases List.mem_cons.mp ht with rfl | ht
        · refine ⟨name, d, hname, hd, ?_, fun ho => ?_⟩
          · rw [(convertFields_keep h (n := name) fun t' ht' e =>
              hn.1 (List.mem_map.mpr ⟨t', ht', e.trans hname.symm⟩)).1]
            exact Dict.get?_set_self _ _ _
          · refine convertFields_req h _ ?_
            split
            · rename_i hopt
              exfalso
              cases t with
              | union us a => exact ho ⟨us, a, rfl, hopt⟩
              | _ => cases hopt
            · exact List.mem_append_right _ (List.mem_singleton.mpr rfl)
        · exact ih h hn.2 ht
    · split at h <;> cases h
    · cases h

theorem exactlyOne_some {ss : List PyVal} {j : PyVal} (h : ExactlyOne refs ss j) : ∃ s ∈ ss, Valid refs s j := by
  induction ss with
  | nil => exact h.elim
  | cons s ss ih =>
    rw [ExactlyOne] at h
    rcases h with ⟨h, _⟩ | ⟨_, h⟩
    · exact ⟨s, by simp, h⟩
    · obtain ⟨s', hs, hv⟩ := ih h
      exact ⟨s', by simp [hs], hv⟩

theorem leaf_shaped {t : RType} (hl : isLeaf t = true) {n : Nat} {d : Dict}
    (h : convertF live n false t = .ok d) {j : PyVal} (hv : Valid refs (.dict d) j) : Shaped live t j := by
  cases n with
  | zero => cases h
  | succ n =>
    simp only [convertF, Bool.false_eq_true, if_false] at h
    cases t with
    | null a =>
      cases h
      have hv := (valid_describe (by simp [Dict.keys])).mp hv
      cases kind_null (type_valid hv)
      exact .null
    | bool a =>
      cases h
      have hv := (valid_describe (by simp [Dict.keys])).mp hv
      obtain ⟨b, rfl⟩ := kind_boolean (type_valid hv)
      exact .bool
    | int b s a =>
      cases h
      have hv := (valid_describe (by simp [Dict.keys])).mp hv
      rcases kind_integer (type_valid hv) with ⟨i, rfl⟩ | ⟨q, e, rfl⟩
      · exact .int
      · exact .point
    | float b a =>
      cases h
      have hv := (valid_describe (by simp [Dict.keys])).mp hv
      rcases kind_number (type_valid hv) with ⟨i, rfl⟩ | ⟨q, e, rfl⟩
      · exact .whole
      · exact .float
    | string l v a =>
      cases h
      have hv := (valid_describe (by simp [Dict.keys])).mp hv
      obtain ⟨b, rfl⟩ := kind_string (type_valid hv)
      exact .string
    | bytes l v a =>
      cases h
      have hv := (valid_describe (by simp [Dict.keys])).mp hv
      obtain ⟨b, rfl⟩ := kind_string (type_valid hv)
      exact .bytes
    | enum xs a =>
      cases h
      have hv := (valid_describe (by simp [Dict.keys])).mp hv
      obtain ⟨b, rfl⟩ := kind_string (type_valid hv)
      have := (valid_get hv (k := "enum") rfl).enum rfl
      cases xs with
      | list xs => exact .enum this
      | _ => exact this.elim
    | _ => cases hl

/-- The schema of a type allows what the schemas of its parts allow. -/
theorem shaped_step {t : RType} (hp : ¬IsReference t) (hn : ∀ fs a, t = .struct fs a → (fs.map nameOf).Nodup) {n : Nat}
    {d : Dict} (h' : convertF live (n + 1) false t = .ok d) {j : PyVal} (hv : Valid refs (.dict d) j)
    (step : ∀ {m d j}, Inside m t → sizeOf m < sizeOf t → convertF live n true m = .ok d → Valid refs (.dict d) j →
      Shaped live m j) : Shaped live t j := by
  by_cases hl : isLeaf t = true
  · exact leaf_shaped hl h' hv
  · simp only [convertF, Bool.false_eq_true, if_false] at h'
    cases t with
    | proxy r a => exact absurd ⟨r, a, rfl⟩ hp
    | list t l v a =>
      simp only at h'
      obtain ⟨d1, h1, h'⟩ := ok_bind h'
      cases h'
      have hv := (valid_describe (by simp [Dict.keys])).mp hv
      obtain ⟨xs, rfl⟩ := kind_array (type_valid hv)
      refine .list fun x hx => step (.list .refl) (by simp; omega) h1 ?_
      exact (valid_get hv (k := "items") rfl).items rfl xs rfl x hx
    | map t v a =>
      simp only at h'
      obtain ⟨d1, h1, h'⟩ := ok_bind h'
      cases h'
      have hv := (valid_describe (by simp [Dict.keys])).mp hv
      obtain ⟨o, rfl⟩ := kind_object (type_valid hv)
      refine .map fun kv hx => step (.value .refl) (by simp; omega) h1 ?_
      exact (valid_get hv (k := "additionalProperties") rfl).values rfl o rfl kv hx (by simp [propertyNames, Dict.get?_cons])
    | struct fs a =>
      simp only at h'
      obtain ⟨⟨props, req⟩, h1, h'⟩ := ok_bind h'
      cases h'
      have hv := (valid_describe (by split <;> simp [Dict.keys])).mp hv
      obtain ⟨o, rfl⟩ := kind_object (type_valid hv)
      have each := fun {t} ht => convertFields_each h1 (hn fs a rfl) (t := t) ht
      refine .struct (fun f hf => ?_) (fun f hf m v hm hg => ?_) (fun f hf m hm hg => ?_)
      · obtain ⟨m, _, hm, _⟩ := each hf
        exact ⟨m, hm⟩
      · obtain ⟨m', d1, hm', hf', hp', _⟩ := each hf
        rw [hm] at hm'
        cases hm'
        have := (valid_get hv (k := "properties") rfl).properties rfl
        rw [Properties, propertiesAll_iff] at this
        refine step (.field hf .refl) ?_ hf' (this _ (Dict.mem_of_get? hp') o v rfl hg)
        have := List.sizeOf_lt_of_mem hf
        simp; omega
      · obtain ⟨m', d1, hm', hf', hp', hr⟩ := each hf
        rw [hm] at hm'
        cases hm'
        by_cases ho : OptionalField f
        · exact ho
        · exfalso
          have hmem := hr ho
          have hreq : Dict.get? ([("type", PyVal.str "object"), ("properties", .dict props)] ++
              if req.isEmpty = true then [] else [("required", .list req)]) "required" = some (.list req) := by
            cases req with
            | nil => cases hmem
            | cons x xs => simp [Dict.get?_cons]
          obtain ⟨m', e, hm'⟩ := (valid_get hv hreq).required rfl o rfl _ hmem
          cases e
          exact absurd hm' (Dict.get?_eq_none_iff.mp hg)
    | union ts a =>
      simp only at h'
      split at h'
      · split at h'
        · rename_i m hf
          obtain ⟨d1, h1, h'⟩ := ok_bind h'
          cases h'
          have hv := (valid_describe (convertF_nodup h1)).mp hv
          have hm := List.mem_filter.mp (by rw [hf]; simp : m ∈ ts.filter _)
          refine .union hm.1 (fun _ => by simpa using hm.2) (step (.member hm.1 .refl) ?_ h1 hv)
          have := List.sizeOf_lt_of_mem hm.1
          simp; omega
        · cases h'
      · rename_i ho
        obtain ⟨ds, h1, h'⟩ := ok_bind h'
        cases h'
        have hv := (valid_describe (by simp [Dict.keys])).mp hv
        have := (valid_get hv (k := "oneOf") rfl).oneOf rfl
        rw [OneOf] at this
        obtain ⟨s, hs, hv'⟩ := exactlyOne_some this
        obtain ⟨m, hm, d1, hd1, rfl⟩ := convertAll_ok h1 s hs
        refine .union hm (fun hopt => ?_) (step (.member hm .refl) ?_ hd1 hv')
        · obtain ⟨_, _, e, hopt⟩ := hopt
          cases e
          exact absurd hopt ho
        · have := List.sizeOf_lt_of_mem hm
          simp; omega
    | _ => exact absurd rfl hl

theorem clean_shaped {t : RType} (hc : Clean live t) (hn : ∀ u, Spans live t u → NamesDiffer u) {n : Nat} {b : Bool}
    {d : Dict} (h : convertF live n b t = .ok d) {j : PyVal} (hv : Valid refs (.dict d) j) : Shaped live t j := by
  induction n generalizing t b d j with
  | zero => cases h
  | succ n ih =>
    by_cases hp : IsReference t
    · obtain ⟨r, a, rfl⟩ := hp
      obtain ⟨m, u, e, hr, h⟩ := reference_written (hc.inlined r a .refl) h
      cases e
      exact .reference hr (ih (hc.mono (.target hr .refl)) (fun x hx => hn x (.target hr hx)) h hv)
    · have h' : convertF live (n + 1) false t = .ok d := by
        have : ownAlias t = .none := ownAlias_free (hc.alias t .refl hp)
        rw [← h]
        cases b
        · rfl
        · simp only [convertF, this, if_true, Bool.false_eq_true, if_false]
      refine shaped_step hp (fun fs a e => hn t .refl fs a (e ▸ .refl)) h' hv fun hi _ hm hv => ?_
      exact ih (hc.mono (inside_spans hi)) (fun x hx => hn x (spans_trans (inside_spans hi) hx)) hm hv

theorem convert_shaped (k : Nat) {t : RType} (hk : sizeOf t ≤ k) (hn : ∀ u, Spans live t u → NamesDiffer u)
    (hd : Defined refs live t) {n : Nat} {b : Bool}
    {d : Dict} (h : convertF live n b t = .ok d) {j : PyVal} (hv : Valid refs (.dict d) j) : Shaped live t j := by
  induction k generalizing t n b d j with
  | zero => cases t <;> simp at hk <;> omega
  | succ k ih =>
    by_cases hp : IsReference t
    · obtain ⟨r, a, rfl⟩ := hp
      obtain ⟨m, u, e, hr, h⟩ := reference_written (hd.inlined.inlined r a .refl) h
      exact .reference hr (clean_shaped (hd.inlined.clean r a u .refl hr) (fun x hx => hn x (.target hr hx)) h hv)
    · obtain ⟨n', d', h', he⟩ := convert_definition hd h
      rw [he] at hv
      cases n' with
      | zero => cases h'
      | succ n' =>
        refine shaped_step hp (fun fs a e => hn t .refl fs a (e ▸ .refl)) h' hv fun hi hlt hm hv => ?_
        exact ih (by omega) (fun x hx => hn x (spans_trans (inside_spans hi) hx)) (hd.mono hi) hm hv

end Recap.JsonData
