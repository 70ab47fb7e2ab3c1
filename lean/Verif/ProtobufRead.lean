import Verif.ProtobufMeans
import Verif.Sealed
import Verif.ResolveThms

/-!
# Lemmas about reading Protobuf files
-/

set_option autoImplicit false

namespace Recap.Protobuf

open Recap.Protobuf.Spec Recap.Spec
open Recap.Avro (hasDot)

/-! ## Types -/

theorem scalars_lookup (s : String) : scalars.lookup s = Spec.scalar s := by
  by_cases h : s ∈ scalars.map (·.1)
  · have : ∀ s ∈ scalars.map (·.1), scalars.lookup s = Spec.scalar s := by decide +kernel
    exact this s h
  · have h1 : scalars.lookup s = .none := by
      rw [List.lookup_eq_none_iff]
      intro p hp
      have : p.1 ∈ scalars.map (·.1) := List.mem_map.mpr ⟨p, hp, rfl⟩
      simp only [bne_iff_ne, ne_eq, beq_eq_false_iff_ne]
      intro hs
      exact h (hs ▸ this)
    rw [h1]
    simp [scalars] at h
    simp [Spec.scalar, h]

theorem scalar_mem {s : String} {t : RType} (h : Spec.scalar s = some t) : (s, t) ∈ scalars := by
  rw [← scalars_lookup] at h
  generalize scalars = l at h
  induction l with
  | nil => cases h
  | cons p l ih =>
    obtain ⟨k, u⟩ := p
    rw [List.lookup_cons] at h
    split at h
    · rename_i hk
      cases h
      rw [eq_of_beq hk]
      exact List.mem_cons_self
    · exact List.mem_cons_of_mem _ (ih h)

theorem scalar_cases {P : String → RType → Prop} {s : String} {t : RType} (h : Spec.scalar s = some t)
    (hp : ∀ p ∈ scalars, P p.1 p.2) : P s t := hp _ (scalar_mem h)

theorem hasDot_iff {s : String} : hasDot s = true ↔ '.' ∈ s.toList := by
  unfold hasDot; simp

theorem typeOf_ok {ns s : String} {t : RType} (h : typeOf (some ns) s = .ok t) :
    (∃ u, Spec.scalar s = some u ∧ t = u) ∨
      (Spec.scalar s = .none ∧ t = .proxy .none { alias := .str (full ns s) }) := by
  unfold typeOf at h
  rw [scalars_lookup] at h
  split at h
  · rename_i u hu
    cases h
    exact .inl ⟨_, hu, rfl⟩
  · rename_i hu
    refine .inr ⟨hu, ?_⟩
    unfold full
    split at h
    · rename_i hd
      cases h
      rw [if_pos (hasDot_iff.mp hd)]
    · rename_i hd
      cases h
      rw [if_neg (fun h => hd (hasDot_iff.mpr h))]

theorem full_dot (ns s : String) : '.' ∈ (full ns s).toList := by
  unfold full
  split
  · assumption
  · simp

/-! ## Registries -/

/-- What a registry holds for a declaration. -/
def Def (D : Decls) (ns : String) (e : Elem) (t : RType) : Prop :=
  (∃ n es fs, e = .message n es ∧ t = .struct fs {} ∧ Fields D ns es fs) ∨
  ∃ n values, e = .enum n values ∧ t = .enum (.list (values.map (·.1))) {}

/-- An entry of a registry with a dotted name is for a declaration. -/
def Entry (D : Decls) (s : String) (t : RType) : Prop :=
  '.' ∈ s.toList → ∃ ns e, D s ns e ∧ Def D ns e t

mutual
/-- The references are to the live registry or to registries with declarations. -/
def Good (D : Decls) : RType → Prop
  | .list t _ _ _ => Good D t
  | .map k t _ => Good D k ∧ Good D t
  | .struct fs _ => GoodAll D fs
  | .union ts _ => GoodAll D ts
  | .proxy (some reg) _ => GoodReg D reg
  | _ => True
def GoodAll (D : Decls) : List RType → Prop
  | [] => True
  | t :: ts => Good D t ∧ GoodAll D ts
/-- All entries are for declarations. -/
def GoodReg (D : Decls) : List (String × RType) → Prop
  | [] => True
  | (s, t) :: ts => Entry D s t ∧ Good D t ∧ GoodReg D ts
end

theorem goodReg_append {D : Decls} {a b : List (String × RType)} : GoodReg D (a ++ b) ↔ GoodReg D a ∧ GoodReg D b := by
  induction a with
  | nil => simp [GoodReg]
  | cons kt a ih =>
    obtain ⟨k, t⟩ := kt
    simp only [List.cons_append, GoodReg, ih, and_assoc]

theorem goodReg_find {D : Decls} {reg : Registry} {s : String} {t : RType} (hr : GoodReg D reg)
    (h : Registry.find? reg s = some t) : Entry D s t ∧ Good D t := by
  induction reg with
  | nil => simp [Registry.find?] at h
  | cons kt reg ih =>
    obtain ⟨k, u⟩ := kt
    simp only [GoodReg, Registry.find?] at *
    split at h
    · rename_i hk
      cases h
      exact ⟨hk ▸ hr.1, hr.2.1⟩
    · exact ih hr.2.2 h

theorem goodAll_append {D : Decls} {a b : List RType} : GoodAll D (a ++ b) ↔ GoodAll D a ∧ GoodAll D b := by
  induction a with
  | nil => simp [GoodAll]
  | cons t a ih => simp only [List.cons_append, GoodAll, ih, and_assoc]

theorem good_withAttrs {D : Decls} {t : RType} (a : Attrs) : Good D (t.withAttrs a) ↔ Good D t := by
  cases t <;> simp [RType.withAttrs, Good]
  rename_i r _
  cases r <;> simp [Good]

mutual
theorem good_deepcopy {D : Decls} {reg : Registry} (hr : GoodReg D reg) :
    ∀ t : RType, Good D t → Good D (t.deepcopy reg)
  | .list t _ _ _, h => by
    simp only [RType.deepcopy, Good] at *; exact good_deepcopy hr t h
  | .map k t _, h => by
    simp only [RType.deepcopy, Good] at *
    exact ⟨good_deepcopy hr k h.1, good_deepcopy hr t h.2⟩
  | .struct fs _, h => by
    simp only [RType.deepcopy, Good] at *; exact good_deepcopyAll hr fs h
  | .union ts _, h => by
    simp only [RType.deepcopy, Good] at *; exact good_deepcopyAll hr ts h
  | .proxy .none _, h => by simp only [RType.deepcopy, Good]; exact hr
  | .proxy (some r) _, h => by simp only [RType.deepcopy, Good] at *; exact h
  | .null _, _ => trivial
  | .bool _, _ => trivial
  | .int .., _ => trivial
  | .float .., _ => trivial
  | .string .., _ => trivial
  | .bytes .., _ => trivial
  | .enum .., _ => trivial
theorem good_deepcopyAll {D : Decls} {reg : Registry} (hr : GoodReg D reg) :
    ∀ ts : List RType, GoodAll D ts → GoodAll D (RType.deepcopyList reg ts)
  | [], _ => trivial
  | t :: ts, h => by
    simp only [RType.deepcopyList, GoodAll] at *
    exact ⟨good_deepcopy hr t h.1, good_deepcopyAll hr ts h.2⟩
end

theorem deepcopy_scalar {s : String} {t : RType} (h : Spec.scalar s = some t) (reg : Registry) (a : Attrs) :
    (t.withAttrs a).deepcopy reg = t.withAttrs a := by
  refine scalar_cases (P := fun _ t => (t.withAttrs a).deepcopy reg = t.withAttrs a) h ?_
  simp [scalars, RType.withAttrs, RType.deepcopy]

mutual
theorem Reads.copy {D : Decls} {ns s : String} {x : Dict} {t : RType} (reg : Registry) :
    Reads D ns s x t → Reads D ns s x (t.deepcopy reg)
  | .scalar h => by rw [deepcopy_scalar h]; exact .scalar h
  | .reference (r := .none) h => .reference h
  | .reference (r := some _) h => .reference h
  | .message h1 h2 h3 => .message h1 h2 (Fields.copy reg h3)
  | .enum h1 h2 => .enum h1 h2
theorem FieldReads.copy {D : Decls} {ns : String} {e : Elem} {t : RType} (reg : Registry) :
    FieldReads D ns e t → FieldReads D ns e (t.deepcopy reg)
  | .required h => .required (Reads.copy reg h)
  | .optional h1 h2 h3 => .optional h1 h2 (Reads.copy reg h3)
  | .null h => .null h
  | .repeated h => .repeated (Reads.copy reg h)
  | .map (t := t) h1 h2 h3 => by
    have : t.deepcopy reg = t := by
      have := deepcopy_scalar h1 reg t.attrs
      rwa [show t.withAttrs t.attrs = t by cases t <;> rfl] at this
    simp only [RType.deepcopy, RType.deepcopyList, this]
    exact .map h1 h2 (Reads.copy reg h3)
  | .oneof h => .oneof (Members.copy reg h)
theorem Members.copy {D : Decls} {ns : String} {es : List Elem} {ts : List RType} (reg : Registry) :
    Members D ns es ts → Members D ns es (RType.deepcopyList reg ts)
  | .nil => .nil
  | .field h1 h2 => .field (Reads.copy reg h1) (Members.copy reg h2)
  | .skip h1 h2 => .skip h1 (Members.copy reg h2)
theorem Fields.copy {D : Decls} {ns : String} {es : List Elem} {ts : List RType} (reg : Registry) :
    Fields D ns es ts → Fields D ns es (RType.deepcopyList reg ts)
  | .nil => .nil
  | .field h1 h2 => .field (FieldReads.copy reg h1) (Fields.copy reg h2)
  | .skip h1 h2 => .skip h1 (Fields.copy reg h2)
end

mutual
theorem Reads.mono {D D' : Decls} {ns s : String} {x : Dict} {t : RType} (hd : ∀ s n e, D s n e → D' s n e) :
    Reads D ns s x t → Reads D' ns s x t
  | .scalar h => .scalar h
  | .reference h => .reference h
  | .message h1 h2 h3 => .message h1 (hd _ _ _ h2) (Fields.mono hd h3)
  | .enum h1 h2 => .enum h1 (hd _ _ _ h2)
theorem FieldReads.mono {D D' : Decls} {ns : String} {e : Elem} {t : RType} (hd : ∀ s n e, D s n e → D' s n e) :
    FieldReads D ns e t → FieldReads D' ns e t
  | .required h => .required (Reads.mono hd h)
  | .optional h1 h2 h3 => .optional h1 h2 (Reads.mono hd h3)
  | .null h => .null h
  | .repeated h => .repeated (Reads.mono hd h)
  | .map h1 h2 h3 => .map h1 h2 (Reads.mono hd h3)
  | .oneof h => .oneof (Members.mono hd h)
theorem Members.mono {D D' : Decls} {ns : String} {es : List Elem} {ts : List RType}
    (hd : ∀ s n e, D s n e → D' s n e) : Members D ns es ts → Members D' ns es ts
  | .nil => .nil
  | .field h1 h2 => .field (Reads.mono hd h1) (Members.mono hd h2)
  | .skip h1 h2 => .skip h1 (Members.mono hd h2)
theorem Fields.mono {D D' : Decls} {ns : String} {es : List Elem} {ts : List RType}
    (hd : ∀ s n e, D s n e → D' s n e) : Fields D ns es ts → Fields D' ns es ts
  | .nil => .nil
  | .field h1 h2 => .field (FieldReads.mono hd h1) (Fields.mono hd h2)
  | .skip h1 h2 => .skip h1 (Fields.mono hd h2)
end

theorem Entry.mono {D D' : Decls} (hd : ∀ s n e, D s n e → D' s n e) {s : String} {t : RType} (h : Entry D s t) :
    Entry D' s t := by
  intro hs
  obtain ⟨ns, e, h1, h2⟩ := h hs
  refine ⟨ns, e, hd _ _ _ h1, ?_⟩
  rcases h2 with ⟨n, es, fs, h3, h4, h5⟩ | h2
  · exact .inl ⟨n, es, fs, h3, h4, Fields.mono hd h5⟩
  · exact .inr h2

mutual
theorem good_mono {D D' : Decls} (hd : ∀ s n e, D s n e → D' s n e) : ∀ t : RType, Good D t → Good D' t
  | .list t _ _ _, h => by simp only [Good] at *; exact good_mono hd t h
  | .map k t _, h => by simp only [Good] at *; exact ⟨good_mono hd k h.1, good_mono hd t h.2⟩
  | .struct fs _, h => by simp only [Good] at *; exact goodAll_mono hd fs h
  | .union ts _, h => by simp only [Good] at *; exact goodAll_mono hd ts h
  | .proxy .none _, h => by simp only [Good]
  | .proxy (some r) _, h => by simp only [Good] at *; exact goodReg_mono hd r h
  | .null _, _ => trivial
  | .bool _, _ => trivial
  | .int .., _ => trivial
  | .float .., _ => trivial
  | .string .., _ => trivial
  | .bytes .., _ => trivial
  | .enum .., _ => trivial
theorem goodAll_mono {D D' : Decls} (hd : ∀ s n e, D s n e → D' s n e) : ∀ ts : List RType,
    GoodAll D ts → GoodAll D' ts
  | [], _ => trivial
  | t :: ts, h => by simp only [GoodAll] at *; exact ⟨good_mono hd t h.1, goodAll_mono hd ts h.2⟩
theorem goodReg_mono {D D' : Decls} (hd : ∀ s n e, D s n e → D' s n e) : ∀ ts : List (String × RType),
    GoodReg D ts → GoodReg D' ts
  | [], _ => trivial
  | (s, t) :: ts, h => by
    simp only [GoodReg] at *
    exact ⟨h.1.mono hd, good_mono hd t h.2.1, goodReg_mono hd ts h.2.2⟩
end

theorem goodReg_new (D : Decls) : GoodReg D newRegistry := by
  simp only [newRegistry, builtinAliases, GoodReg, Good, and_true, Entry]
  repeat' constructor
  all_goals
    intro h
    exact absurd h (by decide)

/-! ## Fields -/

theorem good_scalar {D : Decls} {s : String} {t : RType} (h : Spec.scalar s = some t) : Good D t := by
  refine scalar_cases (P := fun _ t => Good D t) h ?_
  simp [scalars, Good]

theorem scalar_null {s : String} {t : RType} (h : Spec.scalar s = some t) : t.isNull = true ↔ s = "google.protobuf.NullValue" := by
  refine scalar_cases (P := fun s t => t.isNull = true ↔ s = "google.protobuf.NullValue") h ?_
  decide +kernel

/-- What `typeOf` returns. -/
theorem typeOf_reads {D : Decls} {ns s : String} {t : RType} (h : typeOf (some ns) s = .ok t) :
    Reads D ns s [] t ∧ Good D t ∧ (t.isNull = true ↔ s = "google.protobuf.NullValue") ∧
      ∀ name, Reads D ns s [("name", name)] (setExtra t "name" name) := by
  rcases typeOf_ok h with ⟨u, hu, rfl⟩ | ⟨hu, rfl⟩
  · refine ⟨?_, good_scalar hu, scalar_null hu, fun name => .scalar hu⟩
    have := Reads.scalar (D := D) (ns := ns) (x := []) hu
    rwa [show t.withAttrs { t.attrs with extra := Dict.update t.attrs.extra [] } = t by cases t <;> rfl] at this
  · refine ⟨.reference hu, trivial, ?_, fun name => .reference hu⟩
    constructor
    · intro h; cases h
    · rintro rfl
      have : Spec.scalar "google.protobuf.NullValue" = some (.null {}) := by decide +kernel
      rw [this] at hu
      cases hu

theorem good_setExtra {D : Decls} {t : RType} {k : String} {v : PyVal} (h : Good D t) : Good D (setExtra t k v) :=
  (good_withAttrs _).mpr h

theorem fieldType_reads {D : Decls} {ns s : String} {t : RType} {card : Option Card} {name : PyVal} {k : Int}
    (h : typeOf (some ns) s = .ok t) :
    FieldReads D ns (.field name k s card) (fieldType t card name) ∧ Good D (fieldType t card name) := by
  obtain ⟨h1, h2, h3, h4⟩ := typeOf_reads (D := D) h
  have hopt : card = .none ∨ card = some .optional → FieldReads D ns (.field name k s card) (fieldType t card name) ∧
      Good D (fieldType t card name) := by
    intro hc
    have hr : (card = some .repeated) = False := by rcases hc with rfl | rfl <;> simp
    have hq : (card ≠ some .required) = True := by rcases hc with rfl | rfl <;> simp
    by_cases hn : t.isNull = true
    · have hs := h3.mp hn
      have ht : t = .null {} := by
        subst hs
        have : Spec.scalar "google.protobuf.NullValue" = some (.null {}) := by decide +kernel
        rcases typeOf_ok h with ⟨u, hu, rfl⟩ | ⟨hu, -⟩
        · rw [this] at hu; cases hu; rfl
        · rw [this] at hu; cases hu
      subst ht
      subst hs
      simp only [fieldType, hr, hq, if_false, if_true, hn]
      exact ⟨.null hc, trivial⟩
    · simp only [fieldType, hr, hq, if_false, if_true, hn]
      refine ⟨.optional hc (fun h => hn (h3.mpr h)) h1, ?_⟩
      exact good_setExtra (good_setExtra (by simp [Good, GoodAll, h2]))
  match card with
  | .none => exact hopt (.inl rfl)
  | some .optional => exact hopt (.inr rfl)
  | some .required => exact ⟨.required (h4 name), good_setExtra h2⟩
  | some .repeated =>
    refine ⟨.repeated h1, ?_⟩
    exact good_setExtra (good_setExtra (by simp [Good, GoodAll, h2, RType.isNull]))

theorem mapType_reads {D : Decls} {ns key value : String} {t : RType} {name : PyVal} {k : Int}
    (h : mapType (some ns) name key value = .ok t) : FieldReads D ns (.mapField name k key value) t ∧ Good D t := by
  unfold mapType at h
  obtain ⟨u, h1, h⟩ := ok_bind h
  split at h
  · rename_i hk
    obtain ⟨v, h2, h⟩ := ok_bind h
    cases h
    obtain ⟨h3, h4, -⟩ := typeOf_reads (D := D) h2
    rcases typeOf_ok h1 with ⟨u', hu, rfl⟩ | ⟨-, rfl⟩
    · have hkey : Key u := by cases u <;> simp [isKey] at hk <;> trivial
      have := FieldReads.map (name := name) (k := k) hu hkey h3
      have hg : Good D (.union [.null {}, .map u v {}] { extra := [("default", .none)] }) := by
        simp [Good, GoodAll, h4, good_scalar hu]
      by_cases hn : name = .none
      · subst hn
        exact ⟨this, hg⟩
      · simp only [if_neg hn] at this ⊢
        exact ⟨this, good_setExtra hg⟩
    · cases hk
  · cases h

theorem oneofTypes_reads {D : Decls} {ns : String} {es : List Elem} : ∀ {ts : List RType},
    oneofTypes (some ns) es = .ok ts → Members D ns es ts ∧ GoodAll D ts := by
  induction es with
  | nil => intro ts h; simp only [oneofTypes] at h; cases h; exact ⟨.nil, trivial⟩
  | cons e es ih =>
    intro ts h
    cases e
    case field name k s card =>
      simp only [oneofTypes] at h
      obtain ⟨t, h1, h⟩ := ok_bind h
      obtain ⟨ts', h2, h⟩ := ok_bind h
      cases h
      obtain ⟨h3, h4⟩ := ih h2
      obtain ⟨-, h5, -, h6⟩ := typeOf_reads (D := D) h1
      exact ⟨.field (h6 name) h3, good_setExtra h5, h4⟩
    all_goals
      simp only [oneofTypes] at h
      obtain ⟨h3, h4⟩ := ih h
      exact ⟨.skip (by simp) h3, h4⟩

/-! ## Messages -/

theorem within_cons {e x : Elem} {es : List Elem} (h : Within e es) : Within e (x :: es) := by
  cases h with
  | here hm => exact .here (List.mem_cons_of_mem _ hm)
  | inside hm hw => exact .inside (List.mem_cons_of_mem _ hm) hw

/-- The declarations of the elements are among `D`. -/
def Declared (D : Decls) (ns : String) (es : List Elem) : Prop := ∀ s n e, decls ns es s n e → D s n e

theorem Declared.tail {D : Decls} {ns : String} {e : Elem} {es : List Elem} (h : Declared D ns (e :: es)) :
    Declared D ns es := by
  rintro s n x ⟨h1, h2, h3⟩
  exact h s n x ⟨h1, within_cons h2, h3⟩

theorem Declared.head {D : Decls} {ns : String} {e : Elem} {es : List Elem} (h : Declared D ns (e :: es)) {n : String}
    (hn : Spec.nameOf e = some n) : D (ns ++ "." ++ n) ns e :=
  h _ _ _ ⟨rfl, .here List.mem_cons_self, n, hn, rfl⟩

theorem Declared.inside {D : Decls} {ns n : String} {es es' : List Elem} (h : Declared D ns (.message n es :: es')) :
    Declared D ns es := by
  rintro s m x ⟨h1, h2, h3⟩
  exact h s m x ⟨h1, .inside List.mem_cons_self h2, h3⟩

theorem parseEnum_good {D : Decls} {ns name : String} {values : List (PyVal × Int)} {reg reg' : Registry}
    (h : parseEnum (some ns) name values reg = .ok reg') (hr : GoodReg D reg)
    (hd : D (ns ++ "." ++ name) ns (.enum name values)) : GoodReg D reg' := by
  simp only [parseEnum] at h
  obtain ⟨s, h1, -, -, rfl⟩ := registerAlias_ok h
  cases h1
  refine goodReg_append.mpr ⟨hr, fun _ => ⟨ns, _, hd, .inr ⟨name, values, rfl, rfl⟩⟩, trivial, trivial⟩

theorem register_good {D : Decls} {ns name : String} {es : List Elem} {fs : List RType} {reg reg' : Registry} {t : RType}
    (h : register (some ns) name fs reg = .ok (t, reg')) (hr : GoodReg D reg)
    (hd : D (ns ++ "." ++ name) ns (.message name es)) (hf : Fields D ns es fs) (hg : GoodAll D fs) :
    GoodReg D reg' ∧ t = .struct fs { alias := .str (ns ++ "." ++ name) } := by
  simp only [register] at h
  obtain ⟨reg1, h1, h⟩ := ok_bind h
  cases h
  obtain ⟨s, h2, -, -, rfl⟩ := registerAlias_ok h1
  cases h2
  refine ⟨goodReg_append.mpr ⟨hr, fun _ => ⟨ns, _, hd, .inl ⟨name, es, _, rfl, rfl, Fields.copy reg hf⟩⟩, ?_, trivial⟩, rfl⟩
  exact good_deepcopyAll hr fs hg

mutual
theorem parseElem_good {D : Decls} {ns : String} : ∀ (e : Elem) {reg reg' : Registry} {fs : List RType},
    parseElem (some ns) e reg = .ok (fs, reg') → Declared D ns [e] → GoodReg D reg →
    GoodReg D reg' ∧ GoodAll D fs ∧ ((∃ f, fs = [f] ∧ FieldReads D ns e f) ∨ (fs = [] ∧ label e = .none))
  | .field name k s card, reg, reg', fs, h, hd, hr => by
    simp only [parseElem] at h
    obtain ⟨t, h1, h⟩ := ok_bind h
    cases h
    obtain ⟨h2, h3⟩ := fieldType_reads (D := D) (card := card) (name := name) (k := k) h1
    exact ⟨hr, ⟨h3, trivial⟩, .inl ⟨_, rfl, h2⟩⟩
  | .mapField name k key value, reg, reg', fs, h, hd, hr => by
    simp only [parseElem] at h
    obtain ⟨t, h1, h⟩ := ok_bind h
    cases h
    obtain ⟨h2, h3⟩ := mapType_reads (D := D) (k := k) h1
    exact ⟨hr, ⟨h3, trivial⟩, .inl ⟨_, rfl, h2⟩⟩
  | .oneof name es, reg, reg', fs, h, hd, hr => by
    simp only [parseElem] at h
    obtain ⟨ts, h1, h⟩ := ok_bind h
    cases h
    obtain ⟨h2, h3⟩ := oneofTypes_reads (D := D) h1
    exact ⟨hr, ⟨by simp [Good, GoodAll, h3], trivial⟩, .inl ⟨_, rfl, .oneof h2⟩⟩
  | .message name es, reg, reg', fs, h, hd, hr => by
    simp only [parseElem] at h
    obtain ⟨⟨fs1, reg1⟩, h1, h⟩ := ok_bind h
    obtain ⟨⟨t, reg2⟩, h2, h⟩ := ok_bind h
    cases h
    obtain ⟨h3, h4, h5⟩ := parseElems_good es h1 hd.inside hr
    exact ⟨(register_good h2 h3 (hd.head rfl) h5 h4).1, trivial, .inr ⟨rfl, rfl⟩⟩
  | .enum name values, reg, reg', fs, h, hd, hr => by
    simp only [parseElem] at h
    obtain ⟨reg1, h1, h⟩ := ok_bind h
    cases h
    exact ⟨parseEnum_good h1 hr (hd.head rfl), trivial, .inr ⟨rfl, rfl⟩⟩
  | .package name, reg, reg', fs, h, hd, hr => by
    simp only [parseElem] at h
    cases h
    exact ⟨hr, trivial, .inr ⟨rfl, rfl⟩⟩
  | .other, reg, reg', fs, h, hd, hr => by
    simp only [parseElem] at h
    cases h
    exact ⟨hr, trivial, .inr ⟨rfl, rfl⟩⟩
theorem parseElems_good {D : Decls} {ns : String} : ∀ (es : List Elem) {reg reg' : Registry} {fs : List RType},
    parseElems (some ns) es reg = .ok (fs, reg') → Declared D ns es → GoodReg D reg →
    GoodReg D reg' ∧ GoodAll D fs ∧ Fields D ns es fs
  | [], reg, reg', fs, h, hd, hr => by
    simp only [parseElems] at h
    cases h
    exact ⟨hr, trivial, .nil⟩
  | e :: es, reg, reg', fs, h, hd, hr => by
    simp only [parseElems] at h
    obtain ⟨⟨fs1, reg1⟩, h1, h⟩ := ok_bind h
    obtain ⟨⟨fs2, reg2⟩, h2, h⟩ := ok_bind h
    cases h
    have hd1 : Declared D ns [e] := by
      rintro s n x ⟨h3, h4, h5⟩
      refine hd s n x ⟨h3, ?_, h5⟩
      cases h4 with
      | here hm => simp at hm; subst hm; exact .here List.mem_cons_self
      | inside hm hw => simp at hm; subst hm; exact .inside List.mem_cons_self hw
    obtain ⟨h3, h4, h5⟩ := parseElem_good e h1 hd1 hr
    obtain ⟨h6, h7, h8⟩ := parseElems_good es h2 hd.tail h3
    refine ⟨h6, goodAll_append.mpr ⟨h4, h7⟩, ?_⟩
    rcases h5 with ⟨f, rfl, h5⟩ | ⟨rfl, h5⟩
    · exact .field h5 h8
    · exact .skip h5 h8
end

theorem parseTop_good {D : Decls} {ns : String} {es : List Elem} : ∀ {reg reg' : Registry} {root root' : Option RType},
    parseTop (some ns) es root reg = .ok (root', reg') → Declared D ns es → GoodReg D reg →
    GoodReg D reg' ∧ ∀ t, root' = some t → root = some t ∨ (root = .none ∧ ∃ name xs fs, firstMessage es = some (name, xs) ∧
      t = .struct fs { alias := .str (ns ++ "." ++ name) } ∧ Fields D ns xs fs ∧ GoodAll D fs) := by
  induction es with
  | nil =>
    intro reg reg' root root' h _ hr
    simp only [parseTop] at h
    cases h
    exact ⟨hr, fun t h => .inl h⟩
  | cons e es ih =>
    intro reg reg' root root' h hd hr
    cases e
    case message name xs =>
      simp only [parseTop] at h
      obtain ⟨⟨t, reg1⟩, h1, h⟩ := ok_bind h
      unfold parseMessage at h1
      obtain ⟨⟨fs, reg2⟩, h2, h1⟩ := ok_bind h1
      obtain ⟨h3, h4, h5⟩ := parseElems_good xs h2 hd.inside hr
      obtain ⟨h6, h7⟩ := register_good h1 h3 (hd.head rfl) h5 h4
      obtain ⟨h8, h9⟩ := ih h hd.tail h6
      refine ⟨h8, fun u hu => ?_⟩
      rcases h9 u hu with h | ⟨h, -⟩
      · cases root with
        | some r => exact .inl (by simpa using h)
        | none =>
          simp only [Option.getD_none, Option.some.injEq] at h
          subst h
          exact .inr ⟨rfl, name, xs, fs, rfl, h7, h5, h4⟩
      · cases h
    case enum name values =>
      simp only [parseTop] at h
      obtain ⟨reg1, h1, h⟩ := ok_bind h
      exact ih h hd.tail (parseEnum_good h1 hr (hd.head rfl))
    all_goals
      simp only [parseTop] at h
      exact ih h hd.tail hr

end Recap.Protobuf
