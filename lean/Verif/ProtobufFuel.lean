import Verif.ProtobufFile
import Verif.ProtobufParse

/-!
# The bounds on the recursion of the Protobuf converter are enough
-/

set_option autoImplicit false

namespace Recap.Protobuf

open Recap.Protobuf.Spec Recap.Spec

/-! ## Writing -/

mutual
theorem toField_fuel : ∀ (t : RType) (n : Int), toField n t ≠ .error .fuel
  | .list t _ _ _, n => by
    simp only [toField]
    exact ne_fuel_bind (toField_fuel t n) (fun e _ => by cases e <;> simp [setCard])
  | .map k t a, n => by
    simp only [toField]
    refine ne_fuel_bind (toField_fuel k 0) (fun e _ => ne_fuel_bind (toField_fuel t 0) (fun e' _ =>
      ne_fuel_bind ?_ (fun _ _ => ne_fuel_bind ?_ (fun _ _ => by simp [pure, Except.pure]))))
    · cases e <;> simp [fieldTypeOf]
    · cases e' <;> simp [fieldTypeOf]
  | .union ts a, n => by
    simp only [toField]
    refine ne_fuel_bind (toMembers_fuel ts n) (fun es _ => ?_)
    split
    · rename_i e _
      cases e <;> simp [setCard]
    · simp [pure, Except.pure]
  | .struct _ a, n => by simp only [toField]; exact ne_fuel_bind (pathOf_fuel _) (fun _ _ => by simp [pure, Except.pure])
  | .enum _ a, n => by simp only [toField]; exact ne_fuel_bind (pathOf_fuel _) (fun _ _ => by simp [pure, Except.pure])
  | .proxy _ a, n => by simp only [toField]; exact ne_fuel_bind (pathOf_fuel _) (fun _ _ => by simp [pure, Except.pure])
  | .null _, n => by simp only [toField]; exact ne_fuel_bind (scalarOf_fuel _) (fun _ _ => by simp [pure, Except.pure])
  | .bool _, n => by simp only [toField]; exact ne_fuel_bind (scalarOf_fuel _) (fun _ _ => by simp [pure, Except.pure])
  | .int .., n => by simp only [toField]; exact ne_fuel_bind (scalarOf_fuel _) (fun _ _ => by simp [pure, Except.pure])
  | .float .., n => by simp only [toField]; exact ne_fuel_bind (scalarOf_fuel _) (fun _ _ => by simp [pure, Except.pure])
  | .string .., n => by simp only [toField]; exact ne_fuel_bind (scalarOf_fuel _) (fun _ _ => by simp [pure, Except.pure])
  | .bytes .., n => by simp only [toField]; exact ne_fuel_bind (scalarOf_fuel _) (fun _ _ => by simp [pure, Except.pure])
theorem toMembers_fuel : ∀ (ts : List RType) (n : Int), toMembers n ts ≠ .error .fuel
  | [], n => by simp [toMembers]
  | t :: ts, n => by
    simp only [toMembers]
    split
    · exact toMembers_fuel ts n
    · exact ne_fuel_bind (toField_fuel t n) (fun _ _ => ne_fuel_bind (toMembers_fuel ts _) (fun _ _ => by simp [pure, Except.pure]))
theorem pathOf_fuel : ∀ (x : PyVal), pathOf x ≠ .error .fuel
  | x => by unfold pathOf; split <;> simp
theorem scalarOf_fuel : ∀ (t : RType), scalarOf t ≠ .error .fuel
  | t => by unfold scalarOf; repeat' split
            all_goals simp
end

theorem structName_fuel (x : PyVal) : structName x ≠ .error .fuel := by
  unfold structName
  repeat' split
  all_goals simp

theorem enumName_fuel (x : PyVal) : enumName x ≠ .error .fuel := by
  unfold enumName
  repeat' split
  all_goals simp

mutual
theorem gather_fuel : ∀ (t : RType) (st : Store), gather t st ≠ .error .fuel
  | .struct fs a, st => by
    simp only [gather]
    exact ne_fuel_bind (structName_fuel _) (fun _ _ => ne_fuel_bind (gatherFields_fuel fs _ st)
      (fun _ _ => by simp [pure, Except.pure]))
  | .union ts _, st => by simp only [gather]; exact gatherAll_fuel ts st
  | .map k t _, st => by
    simp only [gather]
    exact ne_fuel_bind (gather_fuel k st) (fun st _ => gather_fuel t st)
  | .list t _ _ _, st => by simp only [gather]; exact gather_fuel t st
  | .enum symbols a, st => by
    simp only [gather]
    refine ne_fuel_bind (enumName_fuel _) (fun _ _ => ne_fuel_bind ?_ (fun _ _ => by simp [pure, Except.pure]))
    cases symbols <;> simp [PyVal.iter]
  | .proxy .., st => by simp [gather]
  | .null _, st => by simp [gather]
  | .bool _, st => by simp [gather]
  | .int .., st => by simp [gather]
  | .float .., st => by simp [gather]
  | .string .., st => by simp [gather]
  | .bytes .., st => by simp [gather]
theorem gatherAll_fuel : ∀ (ts : List RType) (st : Store), gatherAll ts st ≠ .error .fuel
  | [], st => by simp [gatherAll]
  | t :: ts, st => by
    simp only [gatherAll]
    exact ne_fuel_bind (gather_fuel t st) (fun st _ => gatherAll_fuel ts st)
theorem gatherFields_fuel : ∀ (ts : List RType) (n : Int) (st : Store), gatherFields n ts st ≠ .error .fuel
  | [], n, st => by simp [gatherFields]
  | t :: ts, n, st => by
    simp only [gatherFields]
    exact ne_fuel_bind (toField_fuel t n) (fun _ _ => ne_fuel_bind (gather_fuel t st) (fun st _ =>
      ne_fuel_bind (gatherFields_fuel ts _ st) (fun _ _ => by simp [pure, Except.pure])))
end

/-- The bound on the recursion is always enough. -/
theorem fromRecap_fuel (t : RType) : fromRecap t ≠ .error .fuel := by
  unfold fromRecap
  split
  · simp
  · refine ne_fuel_bind (gather_fuel t []) (fun st _ => ?_)
    split
    · simp
    · rename_i p _
      split
      · obtain ⟨es, h⟩ := construct_ok (st := st) (n := (st.map (fun p => p.1.length)).sum + 1) (calls := 1) (p := p)
          (fun x hx => by
            have := length_le_sum (f := fun p : String × List Elem => p.1.length) hx
            omega)
        rw [h]
        simp [bind, Except.bind, pure, Except.pure]
      · simp

/-! ## Reading -/

theorem resolveAll_fuel {f : RType → List PyVal → List PyVal → Except PyErr (RType × List PyVal × List PyVal)}
    {ts : List RType} (h : ∀ t ∈ ts, ∀ R S, f t R S ≠ .error .fuel) : ∀ R S, resolveAll f ts R S ≠ .error .fuel := by
  induction ts with
  | nil => intro R S; simp [resolveAll]
  | cons t ts ih =>
    intro R S
    simp only [resolveAll]
    exact ne_fuel_bind (h t (by simp) R S) (fun x _ => ne_fuel_bind (ih (fun u hu => h u (by simp [hu])) _ _)
      (fun _ _ => by simp [pure, Except.pure]))

theorem loose_withAttrs {t : RType} (a : Attrs) : Loose (t.withAttrs a) ↔ Loose t := by
  cases t <;> try rfl
  rename_i r _
  cases r <;> rfl

theorem follow_light {live : Registry} (hl : SealedReg live) {t u : RType} {R R' S : List PyVal} (ht : Loose t)
    (h : follow live t R S = .ok (u, R')) : Loose u ∧ weight (weightReg 0 live) u ≤ weight (weightReg 0 live) t := by
  unfold follow at h
  split at h
  · split at h
    · cases h
      exact ⟨ht, Nat.le_refl _⟩
    · obtain ⟨v, h1, h⟩ := ok_bind h
      cases h
      obtain ⟨h2, h3⟩ := resolve_lighter hl ht h1
      exact ⟨(loose_withAttrs _).mpr h2, by rw [weight_withAttrs]; omega⟩
  · cases h
    exact ⟨ht, Nat.le_refl _⟩

theorem follow_fuel (live : Registry) (t : RType) (R S : List PyVal) : follow live t R S ≠ .error .fuel := by
  unfold follow
  split
  · split
    · simp
    · exact ne_fuel_bind resolve_ne_fuel (fun _ _ => by simp [pure, Except.pure])
  · simp

theorem resolveF_fuel {live : Registry} (hl : SealedReg live) : ∀ (n : Nat) (t : RType) (R S : List PyVal),
    Loose t → weight (weightReg 0 live) t ≤ n → resolveF live n t R S ≠ .error .fuel := by
  intro n
  induction n with
  | zero => intro t R S _ hw; have := weight_pos (weightReg 0 live) t; omega
  | succ n ih =>
    intro t R S ht hw
    rw [resolveF]
    refine ne_fuel_bind (follow_fuel _ _ _ _) (fun x hx => ?_)
    obtain ⟨u, R1⟩ := x
    obtain ⟨h1, h2⟩ := follow_light hl ht hx
    cases u
    case list v l w a =>
      simp only [Loose, weight] at h1 h2
      exact ne_fuel_bind (ih _ _ _ h1 (by omega)) (fun _ _ => by simp [pure, Except.pure])
    case map k v a =>
      simp only [Loose, weight] at h1 h2
      exact ne_fuel_bind (ih _ _ _ h1.1 (by omega)) (fun _ _ => ne_fuel_bind (ih _ _ _ h1.2 (by omega))
        (fun _ _ => by simp [pure, Except.pure]))
    case union ts a =>
      simp only [Loose, weight] at h1 h2
      exact ne_fuel_bind (resolveAll_fuel (fun t ht R S => ih t R S (loose_mem h1 t ht)
        (by have := weight_mem (l := weightReg 0 live) t ht; omega)) _ _) (fun _ _ => by simp [pure, Except.pure])
    case struct ts a =>
      simp only [Loose, weight] at h1 h2
      exact ne_fuel_bind (resolveAll_fuel (fun t ht R S => ih t R S (loose_mem h1 t ht)
        (by have := weight_mem (l := weightReg 0 live) t ht; omega)) _ _) (fun _ _ => by simp [pure, Except.pure])
    all_goals simp [pure, Except.pure]

theorem typeOf_fuel (ns : Option String) (s : String) : typeOf ns s ≠ .error .fuel := by
  unfold typeOf
  repeat' split
  all_goals simp

theorem oneofTypes_fuel (ns : Option String) : ∀ (es : List Elem), oneofTypes ns es ≠ .error .fuel
  | [] => by simp [oneofTypes]
  | .field .. :: es => by
    simp only [oneofTypes]
    exact ne_fuel_bind (typeOf_fuel _ _) (fun _ _ => ne_fuel_bind (oneofTypes_fuel ns es) (fun _ _ => by simp [pure, Except.pure]))
  | .mapField .. :: es => by simp only [oneofTypes]; exact oneofTypes_fuel ns es
  | .oneof .. :: es => by simp only [oneofTypes]; exact oneofTypes_fuel ns es
  | .message .. :: es => by simp only [oneofTypes]; exact oneofTypes_fuel ns es
  | .enum .. :: es => by simp only [oneofTypes]; exact oneofTypes_fuel ns es
  | .package _ :: es => by simp only [oneofTypes]; exact oneofTypes_fuel ns es
  | .other :: es => by simp only [oneofTypes]; exact oneofTypes_fuel ns es

theorem registerAlias_fuel (reg : Registry) (t : RType) : reg.registerAlias t ≠ .error .fuel := by
  unfold Registry.registerAlias
  repeat' split
  all_goals simp

theorem parseEnum_fuel (ns : Option String) (name : String) (values : List (PyVal × Int)) (reg : Registry) :
    parseEnum ns name values reg ≠ .error .fuel := by
  unfold parseEnum
  split
  · exact registerAlias_fuel _ _
  · simp

theorem register_fuel (ns : Option String) (name : String) (fs : List RType) (reg : Registry) :
    register ns name fs reg ≠ .error .fuel := by
  unfold register
  split
  · exact ne_fuel_bind (registerAlias_fuel _ _) (fun _ _ => by simp [pure, Except.pure])
  · simp

mutual
theorem parseElem_fuel (ns : Option String) : ∀ (e : Elem) (reg : Registry), parseElem ns e reg ≠ .error .fuel
  | .field .., reg => by
    simp only [parseElem]
    exact ne_fuel_bind (typeOf_fuel _ _) (fun _ _ => by simp [pure, Except.pure])
  | .mapField .., reg => by
    simp only [parseElem, mapType]
    refine ne_fuel_bind (ne_fuel_bind (typeOf_fuel _ _) (fun k _ => ?_)) (fun _ _ => by simp [pure, Except.pure])
    split
    · exact ne_fuel_bind (typeOf_fuel _ _) (fun _ _ => by simp [pure, Except.pure])
    · simp
  | .oneof _ es, reg => by
    simp only [parseElem]
    exact ne_fuel_bind (oneofTypes_fuel _ _) (fun _ _ => by simp [pure, Except.pure])
  | .message name es, reg => by
    simp only [parseElem]
    exact ne_fuel_bind (parseElems_fuel ns es reg) (fun _ _ => ne_fuel_bind (register_fuel _ _ _ _)
      (fun _ _ => by simp [pure, Except.pure]))
  | .enum .., reg => by
    simp only [parseElem]
    exact ne_fuel_bind (parseEnum_fuel _ _ _ _) (fun _ _ => by simp [pure, Except.pure])
  | .package _, reg => by simp [parseElem]
  | .other, reg => by simp [parseElem]
theorem parseElems_fuel (ns : Option String) : ∀ (es : List Elem) (reg : Registry), parseElems ns es reg ≠ .error .fuel
  | [], reg => by simp [parseElems]
  | e :: es, reg => by
    simp only [parseElems]
    exact ne_fuel_bind (parseElem_fuel ns e reg) (fun x _ => ne_fuel_bind (parseElems_fuel ns es x.2)
      (fun _ _ => by simp [pure, Except.pure]))
end

theorem parseTop_fuel (ns : Option String) (es : List Elem) : ∀ (root : Option RType) (reg : Registry),
    parseTop ns es root reg ≠ .error .fuel := by
  induction es with
  | nil => intro root reg; simp [parseTop]
  | cons e es ih =>
    intro root reg
    cases e
    case message =>
      simp only [parseTop, parseMessage]
      exact ne_fuel_bind (ne_fuel_bind (parseElems_fuel _ _ _) (fun _ _ => register_fuel _ _ _ _)) (fun _ _ => ih _ _)
    case enum =>
      simp only [parseTop]
      exact ne_fuel_bind (parseEnum_fuel _ _ _ _) (fun _ _ => ih _ _)
    all_goals
      simp only [parseTop]
      exact ih _ _

/-- The bound on the recursion is enough for every converter that has been made and has read some files. -/
theorem toRecap_fuel {c : Converter} {D : Decls} (hc : Has_read c D) (file : List Elem) : toRecap c file ≠ .error .fuel := by
  unfold toRecap
  refine ne_fuel_bind ?_ (fun x hx => ?_)
  · unfold parse
    refine ne_fuel_bind (parseTop_fuel _ _ _ _) (fun x _ => ?_)
    repeat' split
    all_goals simp [pure, Except.pure]
  · obtain ⟨t, c'⟩ := x
    unfold parse at hx
    simp only at hx
    obtain ⟨⟨root, reg⟩, h1, hx⟩ := ok_bind hx
    cases root with
    | none => cases hx
    | some u =>
      simp only at hx
      split at hx
      · cases hx
      · rename_i hne
        cases hx
        obtain ⟨ns, hns⟩ : ∃ ns, (entered c file).getLast? = some ns := by
          cases h : (entered c file).getLast? with
          | none => exact absurd (List.getLast?_eq_none_iff.mp h) hne
          | some ns => exact ⟨ns, rfl⟩
        rw [hns] at h1
        obtain ⟨h2, h3⟩ := parseTop_inv (inv_sealed ns) h1 (has_read_flat hc).2
        refine ne_fuel_bind (ne_fuel_bind (resolveF_fuel h2 _ _ _ _ ?_ (Nat.le_refl _)) (fun _ _ => by simp [pure, Except.pure]))
          (fun v _ => by split <;> simp [pure, Except.pure])
        rcases h3 _ rfl with h | ⟨-, name, xs, fs, -, rfl, h7⟩
        · cases h
        · exact (fresh_flatAll fs h7).2

end Recap.Protobuf
