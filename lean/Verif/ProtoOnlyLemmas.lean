import Verif.ProtoOnlySpec
import Verif.ProtoDataRead

/-!
# The values of the type that is read are data of the file

Lemmas for C139.
-/

set_option autoImplicit false

namespace Recap.ProtoData

open Protobuf
open Protobuf.Spec (Within label firstMessage scalar full Decls decls Reads FieldReads Members Fields innerAll inner Key RefersTo Has_read)
open Avro.Spec (IntValue)
open AvroData (HoldsIn Same holds_withAttrs)
open Values (Val CommonEra)
open Recap.Spec (children Sub)

/-! ## References -/

theorem good_override {D : Decls} {t u : RType} {k : String} {v : PyVal} (ht : Good D t)
    (h : applyOverride t k v = .ok u) : Good D u := by
  unfold applyOverride at h
  simp only at h
  split at h
  · cases h
  · repeat' split at h
    all_goals first
      | (cases h; done)
      | (cases h; exact (good_withAttrs _).mpr ht)
      | (cases h; exact ht)

theorem good_overrides {D : Decls} {d : Dict} {t u : RType} (ht : Good D t) (h : applyOverrides t d = .ok u) :
    Good D u := by
  induction d generalizing t with
  | nil => cases h; exact ht
  | cons kv d ih =>
    obtain ⟨k, v⟩ := kv
    simp only [applyOverrides] at h
    obtain ⟨t', h1, h⟩ := ok_bind h
    exact ih (good_override ht h1) h

theorem good_resolve {D : Decls} {live : Registry} {r : Option (List (String × RType))} {a : Attrs} {u : RType}
    (hr : GoodReg D (r.getD live)) (h : resolve live r a = .ok u) : Good D u := by
  unfold resolve at h
  simp only at h
  obtain ⟨t, h1, h⟩ := ok_bind h
  unfold Registry.fromAlias at h1
  split at h1
  · split at h1
    · rename_i hf
      cases h1
      exact good_overrides (good_deepcopy hr _ (goodReg_find hr hf).2) h
    · cases h1
  · cases h1

theorem good_follow {D : Decls} {live : Registry} (hl : GoodReg D live) {t u : RType} {R S R' : List PyVal}
    (ht : Good D t) (h : follow live t R S = .ok (u, R')) : Good D u := by
  unfold follow at h
  split at h
  · split at h
    · cases h; exact ht
    · rename_i r a _
      obtain ⟨d, h1, h⟩ := ok_bind h
      cases h
      refine (good_withAttrs _).mpr (good_resolve ?_ h1)
      cases r with
      | none => exact hl
      | some r => simp only [Good] at ht; exact ht
  · cases h; exact ht

theorem good_resolveAll {D : Decls}
    {f : RType → List PyVal → List PyVal → Except PyErr (RType × List PyVal × List PyVal)}
    (hf : ∀ t R S t' R' S', Good D t → f t R S = .ok (t', R', S') → Good D t') :
    ∀ {ts ts' : List RType} {R S R' S' : List PyVal}, GoodAll D ts → resolveAll f ts R S = .ok (ts', R', S') →
      GoodAll D ts' := by
  intro ts
  induction ts with
  | nil => intro ts' R S R' S' h1 h; simp only [resolveAll] at h; cases h; exact h1
  | cons t ts ih =>
    intro ts' R S R' S' h1 h
    obtain ⟨t1, R1, S1, ts1, h2, h3, rfl⟩ := resolveAll_cons h
    simp only [GoodAll] at h1 ⊢
    exact ⟨hf _ _ _ _ _ _ h1.1 h2, ih h1.2 h3⟩

/-- Resolving references leaves none to other registries. -/
theorem good_resolveF {D : Decls} {live : Registry} (hl : GoodReg D live) (n : Nat) :
    ∀ t R S t' R' S', Good D t → resolveF live n t R S = .ok (t', R', S') → Good D t' := by
  induction n with
  | zero => intro _ _ _ _ _ _ _ h; cases h
  | succ n ih =>
    intro t R S t' R' S' ht h
    obtain ⟨u, R1, h1, h2⟩ := resolveF_succ h
    have hu := good_follow hl ht h1
    rcases h2 with ⟨_, _, _, _, _, _, _, rfl, h3, rfl, _⟩ | ⟨_, _, _, _, _, _, _, _, _, rfl, h3, h4, rfl, _⟩ |
      ⟨_, _, _, _, _, rfl, h3, rfl, _⟩ | ⟨_, _, _, _, _, rfl, h3, rfl, _⟩ | ⟨_, rfl, _⟩
    · simp only [Good] at hu ⊢; exact ih _ _ _ _ _ _ hu h3
    · simp only [Good] at hu ⊢; exact ⟨ih _ _ _ _ _ _ hu.1 h3, ih _ _ _ _ _ _ hu.2 h4⟩
    · simp only [Good] at hu ⊢; exact good_resolveAll ih hu h3
    · simp only [Good] at hu ⊢; exact good_resolveAll ih hu h3
    · exact hu

/-- What is read from a file, and its references. -/
theorem toRecap_good {D : Decls} {c c' : Converter} {file : List Elem} {t : RType} {ns : String}
    (h : toRecap c file = .ok (t, c')) (hc : GoodReg D c.registry)
    (hns : (packageOf file).or c.namespaces.getLast? = some ns) (hd : Protobuf.Declared D ns file) : Good D t := by
  obtain ⟨root, ns', h1, h2, -, h3, h4⟩ := toRecap_ok h
  rw [hns] at h1
  cases h1
  obtain ⟨h5, h6⟩ := parseTop_good h2 hd hc
  rcases h6 root rfl with h7 | ⟨-, name, xs, fs, h7, rfl, h8, h9⟩
  · cases h7
  · unfold resolveProxies at h3
    obtain ⟨⟨t', R', S'⟩, h10, h3⟩ := ok_bind h3
    cases h3
    exact good_resolveF h5 _ _ _ _ _ _ _ (by simp only [Good]; exact h9) h10

/-! ## Types of Protobuf -/

theorem same_back {t : RType} {x : Dict} (hx : Added x) :
    Same (t.withAttrs { t.attrs with extra := Dict.update t.attrs.extra x }).attrs t.attrs := by
  have := same_added (a := t.attrs) hx
  rw [attrs_withAttrs]
  exact ⟨this.1.symm, fun k hk => (this.2 k hk).symm⟩

theorem near_of {x : Val} (h : ∀ ns, ¬Part (.instant ns) x) : Near x := fun ns hp => absurd hp (h ns)

theorem holds_int {n : Int} {s : Bool} {x : Val} (h : Values.Holds (.int (.int n) (.bool s) {}) x) :
    ∃ i, x = .int i ∧ IntValue n.toNat s i ∧ Near x := by
  generalize ha : ({} : Attrs) = a at h
  cases h with
  | int _ h => exact ⟨_, rfl, h, near_of fun ns hp => by cases hp⟩
  | instant h => subst ha; cases h
  | date h => subst ha; cases h
  | time h => subst ha; cases h

theorem fits_le {l n : Nat} (h : Values.Fits (.int l) n) : n ≤ l := by
  rcases h with h | ⟨m, h, h'⟩
  · cases h
  · cases h; omega

theorem nearScalar_holds {s : String} {x : Val} {t : RType} (hs : Spec.scalar s = some t) (h : Values.Holds t x) :
    NearScalar s x := by
  have key : ∀ x, Values.Holds t x → NearScalar s x := by
    refine scalar_cases (P := fun s t => ∀ x, Values.Holds t x → NearScalar s x) hs ?_
    intro p hp x h
    simp only [scalars, List.mem_cons, List.not_mem_nil, or_false] at hp
    rcases hp with rfl | rfl | rfl | rfl | rfl | rfl | rfl | rfl | rfl | rfl | rfl | rfl | rfl | rfl | rfl | rfl | rfl | rfl
    · cases h with
      | @string _ _ s _ _ h =>
        have h : s.utf8ByteSize ≤ 2147483648 := fits_le (l := 2147483648) h
        by_cases h' : s.utf8ByteSize < 2147483648
        · exact .scalar (.string h') (near_of fun ns hp => by cases hp)
        · exact .string (by omega)
      | uuid h => cases h
    · cases h with
      | bool => exact .scalar .bool (near_of fun ns hp => by cases hp)
    · cases h with
      | @bytes _ _ n _ _ h =>
        have h : n ≤ 2147483648 := fits_le (l := 2147483648) h
        by_cases h' : n < 2147483648
        · exact .scalar (.bytes h') (near_of fun ns hp => by cases hp)
        · cases (show n = 2147483648 by omega)
          exact .bytes
      | decimal h => cases h
    · obtain ⟨i, rfl, h1, h2⟩ := holds_int h
      exact .scalar (.int32 (by decide) h1) h2
    · obtain ⟨i, rfl, h1, h2⟩ := holds_int h
      exact .scalar (.int64 (by decide) h1) h2
    · obtain ⟨i, rfl, h1, h2⟩ := holds_int h
      exact .scalar (.uint32 (by decide) h1) h2
    · obtain ⟨i, rfl, h1, h2⟩ := holds_int h
      exact .scalar (.uint64 (by decide) h1) h2
    · obtain ⟨i, rfl, h1, h2⟩ := holds_int h
      exact .scalar (.int32 (by decide) h1) h2
    · obtain ⟨i, rfl, h1, h2⟩ := holds_int h
      exact .scalar (.int64 (by decide) h1) h2
    · cases h with
      | float h => exact .scalar (.float (by omega)) (near_of fun ns hp => by cases hp)
    · cases h with
      | float h => exact .scalar (.double (by omega)) (near_of fun ns hp => by cases hp)
    · obtain ⟨i, rfl, h1, h2⟩ := holds_int h
      exact .scalar (.uint32 (by decide) h1) h2
    · obtain ⟨i, rfl, h1, h2⟩ := holds_int h
      exact .scalar (.uint64 (by decide) h1) h2
    · obtain ⟨i, rfl, h1, h2⟩ := holds_int h
      exact .scalar (.int32 (by decide) h1) h2
    · obtain ⟨i, rfl, h1, h2⟩ := holds_int h
      exact .scalar (.int64 (by decide) h1) h2
    · cases h with
      | int h => cases h
      | instant _ g1 g2 g3 =>
        cases g1
        cases g2
        rw [Int.mul_one]
        refine .scalar (.timestamp ?_) fun ns hp => by cases hp; exact g3
        simp [IntValue] at g3
        simp only [CommonEra]
        omega
      | date h => exact absurd h (by decide)
      | time h => exact absurd h (by decide)
    · cases h with
      | int h => cases h
      | instant h => exact absurd h (by decide)
      | date h => exact absurd h (by decide)
      | time h => exact absurd h (by decide)
    · cases h with
      | null => exact .scalar .null (near_of fun ns hp => by cases hp)
  exact key x h

theorem closed_holdsScalar {s : String} {x : Val} {t : RType} (hs : Spec.scalar s = some t) (h : NearScalar s x) :
    children t = [] ∧ Values.Holds t x := by
  cases h with
  | scalar h hn =>
    obtain ⟨u, h1, h2, h3⟩ := scalar_holds h hn
    rw [hs] at h1
    cases h1
    exact ⟨h2, h3⟩
  | string h =>
    cases hs.symm.trans (show Spec.scalar "string" = some (.string (.int (2 ^ 31)) (.bool true) {}) by decide +kernel)
    exact ⟨rfl, .string rfl (.inr ⟨_, rfl, by omega⟩)⟩
  | bytes =>
    cases hs.symm.trans (show Spec.scalar "bytes" = some (.bytes (.int (2 ^ 31)) (.bool true) {}) by decide +kernel)
    exact ⟨rfl, .bytes rfl (.inr ⟨_, rfl, by omega⟩)⟩

/-! ## From values to data -/

theorem fields_of {D : Decls} {ns : String} {es : List Elem} {fs : List RType} :
    Fields D ns es fs → (fields es).length = fs.length ∧
      ∀ (i : Nat) e, (fields es)[i]? = some e → ∃ f, fs[i]? = some f ∧ FieldReads D ns e f := by
  intro h
  obtain ⟨h1, h2⟩ := fields_each h
  refine ⟨h1, fun i e he => ?_⟩
  have hi : i < (fields es).length := (List.getElem?_eq_some_iff.mp he).1
  obtain ⟨e', h3, h4⟩ := h2 i fs[i] (by simp)
  rw [he] at h3
  cases h3
  exact ⟨_, by simp, h4⟩

theorem members_of {D : Decls} {ns : String} {es : List Elem} {ts : List RType} (h : Members D ns es ts) {t : RType}
    (ht : t ∈ ts) : ∃ m k s card, .field m k s card ∈ es ∧ Reads D ns s [("name", m)] t := by
  induction es generalizing ts with
  | nil => cases h; cases ht
  | cons e es ih =>
    cases h with
    | field h1 h2 =>
      rcases List.mem_cons.mp ht with rfl | ht
      · exact ⟨_, _, _, _, List.mem_cons_self, h1⟩
      · obtain ⟨m, k, s, card, h3, h4⟩ := ih h2 ht
        exact ⟨m, k, s, card, List.mem_cons_of_mem _ h3, h4⟩
    | skip _ h2 =>
      obtain ⟨m, k, s, card, h3, h4⟩ := ih h2 ht
      exact ⟨m, k, s, card, List.mem_cons_of_mem _ h3, h4⟩

theorem mem_fields {es : List Elem} {i : Nat} {e : Elem} (h : (fields es)[i]? = some e) : e ∈ es :=
  (List.mem_filter.mp (List.mem_of_getElem? h)).1

theorem goodAll_mem {D : Decls} {ts : List RType} (h : GoodAll D ts) {t : RType} (ht : t ∈ ts) : Good D t := by
  induction ts with
  | nil => cases ht
  | cons u ts ih =>
    simp only [GoodAll] at h
    rcases List.mem_cons.mp ht with rfl | ht
    · exact h.1
    · exact ih h.2 ht

theorem refers_mem {es : List Elem} {e : Elem} (he : e ∈ es) {s : String} (h : RefersTo [e] s) : RefersTo es s := by
  cases h with
  | field h => exact .field (List.mem_singleton.mp h ▸ he)
  | value h => exact .value (List.mem_singleton.mp h ▸ he)
  | member h h' => exact .member (List.mem_singleton.mp h ▸ he) h'

/-- What the values of a type are, of those types that the converter makes. -/
structure Only (ns : String) (file : List Elem) (t : RType) (x : Val) : Prop where
  type : ∀ s ex scope, Scope file scope → (Spec.scalar s = .none → ∃ e scope', Finds file scope s e scope') → Added ex →
    Reads (decls ns file) ns s ex t → Good (decls ns file) t → NearDatum file scope s x
  field : ∀ e scope, Scope file scope →
    (∀ s, RefersTo [e] s → Spec.scalar s = .none → ∃ e scope', Finds file scope s e scope') →
    FieldReads (decls ns file) ns e t → Good (decls ns file) t → NearElement file scope e x
  message : ∀ n es l rest fs a, Scope file (l :: rest) → .message n es ∈ l → t = .struct fs a →
    Fields (decls ns file) ns es fs → GoodAll (decls ns file) fs → NearDeclared file (l :: rest) (.message n es) x
  list : ∀ u l v a s scope, Scope file scope → (Spec.scalar s = .none → ∃ e scope', Finds file scope s e scope') →
    t = .list u l v a → Reads (decls ns file) ns s [] u → Good (decls ns file) u →
    ∃ xs, x = .list xs ∧ ∀ y ∈ xs, NearDatum file scope s y
  map : ∀ k u a key value scope, Scope file scope →
    (Spec.scalar value = .none → ∃ e scope', Finds file scope value e scope') → t = .map k u a →
    Spec.scalar key = some k → Reads (decls ns file) ns value [] u → Good (decls ns file) u →
    ∃ ps, x = .map ps ∧ (∀ p ∈ ps, NearDatum file scope key p.1) ∧ ∀ p ∈ ps, NearDatum file scope value p.2
  null : ∀ a, t = .null a → x = .null
  enum : ∀ n values l a, t = .enum (.list (values.map (·.1))) a → NearDeclared file l (.enum n values) x

theorem reads_bare {D : Decls} {ns s : String} {ex : Dict} {t : RType} (h : Reads D ns s ex t) :
    (∀ u l v a, t ≠ .list u l v a) ∧ (∀ k u a, t ≠ .map k u a) ∧ ∀ ts a, t ≠ .union ts a := by
  cases h with
  | @scalar _ _ _ u h =>
    obtain ⟨hb, -⟩ := scalar_bare h
    cases u <;> simp [Bare] at hb <;> simp [RType.withAttrs]
  | _ => simp

theorem scalar_children {s : String} {t : RType} (h : Spec.scalar s = some t) : children t = [] := by
  refine scalar_cases (P := fun _ t => children t = []) h ?_
  simp [scalars, children]

/-- A type of Protobuf has no other values. -/
theorem scalar_only {reg : Registry} {s : String} {t : RType} {x : Val} (hs : Spec.scalar s = some t) {ex : Dict} (hx : Added ex)
    (h : HoldsIn reg (t.withAttrs { t.attrs with extra := Dict.update t.attrs.extra ex }) x) : NearScalar s x := by
  obtain ⟨hb, hp⟩ := scalar_bare hs
  have hl : Values.Holds (t.withAttrs { t.attrs with extra := Dict.update t.attrs.extra ex }) x := by
    generalize hu : t.withAttrs { t.attrs with extra := Dict.update t.attrs.extra ex } = u at h
    cases h with
    | leaf _ h => exact h
    | reference => cases t <;> simp [RType.withAttrs] at hu <;> exact absurd rfl (hp _ _)
    | _ => cases t <;> simp [RType.withAttrs, Bare] at hu hb
  have := holds_withAttrs hl (same_back hx)
  have e : ∀ a, (t.withAttrs a).withAttrs t.attrs = t := by cases t <;> simp [RType.withAttrs, RType.attrs]
  rw [e] at this
  exact nearScalar_holds hs this

theorem enum_only {reg : Registry} {file : List Elem} {values : List (PyVal × Int)} {a : Attrs} {x : Val} (n : String)
    (l : List (List Elem)) (h : HoldsIn reg (.enum (.list (values.map (·.1))) a) x) :
    NearDeclared file l (.enum n values) x := by
  cases h with
  | leaf _ h =>
    cases h with
    | enum h =>
      obtain ⟨⟨v, k⟩, h1, h2⟩ := List.mem_map.mp h
      simp only at h2
      subst h2
      exact .enum h1

/-- The values of a type that the converter makes are nearly data. -/
theorem only_of {ns : String} {file : List Elem} (hu : Unique file) (hm : Meaningful file) {reg : Registry} {t : RType}
    {x : Val} (h : HoldsIn reg t x) : GoodReg (decls ns file) reg → Only ns file t x := by
  have hfields : ∀ {es : List Elem} {n : String} {l rest} {fs : List RType} {xs : List Val}, Scope file (l :: rest) →
      .message n es ∈ l → Fields (decls ns file) ns es fs → GoodAll (decls ns file) fs → fs.length = xs.length →
      (∀ (i : Nat) f x, fs[i]? = some f → xs[i]? = some x → Only ns file f x) →
      NearDeclared file (l :: rest) (.message n es) (.struct xs) := by
    intro es n l rest fs xs hs hml hf hg hlen ih
    obtain ⟨h1, h2⟩ := fields_of hf
    refine .message (h1.trans hlen) fun i e x he hx => ?_
    obtain ⟨f, h3, h4⟩ := h2 i e he
    have hsc : Scope file (es :: l :: rest) := .message hs hml
    exact (ih i f x h3 hx).field e _ hsc (fun s hr hn => hm es _ s hsc (refers_mem (mem_fields he) hr) hn) h4
      (goodAll_mem hg (List.mem_of_getElem? h3))
  induction h with
  | @leaf reg t x hc h =>
    intro hr
    have hin : HoldsIn reg t x := .leaf hc h
    have hmsg : ∀ n es l rest fs a, Scope file (l :: rest) → .message n es ∈ l → t = .struct fs a →
        Fields (decls ns file) ns es fs → GoodAll (decls ns file) fs →
        NearDeclared file (l :: rest) (.message n es) x := by
      intro n es l rest fs a hs hml ht hf hg
      subst ht
      have : fs = [] := by simpa [children] using hc
      subst this
      cases h with
      | struct hl _ =>
        exact hfields hs hml hf hg hl (fun i f x h3 _ => by simp at h3)
    have htype : ∀ s ex scope, Scope file scope → (Spec.scalar s = .none → ∃ e scope', Finds file scope s e scope') → Added ex →
        Reads (decls ns file) ns s ex t → Good (decls ns file) t → NearDatum file scope s x := by
      intro s ex scope hs hf hex hrd hg
      cases hrd with
      | scalar h1 => exact .scalar (scalar_only h1 hex hin)
      | reference => cases h
      | message h1 h2 h3 =>
        obtain ⟨e, scope', h4⟩ := hf h1
        obtain ⟨rfl, rfl, l, rest, m, rfl, h5, h6, -⟩ := finds_decl hu h4 hs h2
        exact .other h1 h4 (hmsg _ _ _ _ _ _ h5 h6 rfl h3 (by simpa only [Good] using hg))
      | enum h1 h2 =>
        obtain ⟨e, scope', h4⟩ := hf h1
        obtain ⟨rfl, -⟩ := finds_decl hu h4 hs h2
        exact .other h1 h4 (enum_only _ _ hin)
    refine ⟨htype, ?_, hmsg, ?_, ?_, ?_, ?_⟩
    · intro e scope hs hf hrd hg
      cases hrd with
      | required hrd => exact .value (by simp) (htype _ _ _ hs (hf _ (.field (List.mem_singleton.mpr rfl))) (.inr ⟨_, rfl⟩) hrd hg)
      | null hcard =>
        cases h
        exact .absent (by rcases hcard with rfl | rfl <;> simp)
      | _ => simp [children] at hc
    · rintro u l v a s scope hs hf rfl
      simp [children] at hc
    · rintro k u a key value scope hs hf rfl
      simp [children] at hc
    · rintro a rfl; cases h; rfl
    · rintro n values l a rfl; exact enum_only _ _ hin
  | @list reg t v vs a h ih =>
    intro hr
    refine ⟨fun s ex scope _ _ _ hrd => absurd rfl ((reads_bare hrd).1 _ _ _ _), ?_, by simp, ?_, by simp, by simp, by simp⟩
    · intro e scope hs hf hrd hg
      cases hrd with
      | required hrd => exact absurd rfl ((reads_bare hrd).1 _ _ _ _)
    · intro u l v' a' s scope hs hf ht hrd hg
      cases ht
      exact ⟨_, rfl, fun y hy => (ih y hy hr).type s [] scope hs hf (.inl rfl) hrd hg⟩
  | @map reg k v ps a h1 h2 ih1 ih2 =>
    intro hr
    refine ⟨fun s ex scope _ _ _ hrd => absurd rfl ((reads_bare hrd).2.1 _ _ _), ?_, by simp, by simp, ?_, by simp, by simp⟩
    · intro e scope hs hf hrd hg
      cases hrd with
      | required hrd => exact absurd rfl ((reads_bare hrd).2.1 _ _ _)
    · intro k' u a' key value scope hs hf ht hk hrd hg
      cases ht
      refine ⟨_, rfl, fun p hp => ?_, fun p hp => (ih2 p hp hr).type value [] scope hs hf (.inl rfl) hrd hg⟩
      have := h1 p hp
      refine .scalar (scalar_only hk (ex := []) (.inl rfl) ?_ (reg := reg))
      simp only [Dict.update, List.foldl]
      rwa [withAttrs_attrs]
  | @struct reg fs vs a hl h ih =>
    intro hr
    have hmsg : ∀ n es l rest fs' a', Scope file (l :: rest) → .message n es ∈ l → RType.struct fs a = .struct fs' a' →
        Fields (decls ns file) ns es fs' → GoodAll (decls ns file) fs' →
        NearDeclared file (l :: rest) (.message n es) (.struct vs) := by
      intro n es l rest fs' a' hs hml ht hf hg
      cases ht
      exact hfields hs hml hf hg hl fun i f x h3 h4 => ih i f x h3 h4 hr
    have htype : ∀ s ex scope, Scope file scope → (Spec.scalar s = .none → ∃ e scope', Finds file scope s e scope') → Added ex →
        Reads (decls ns file) ns s ex (.struct fs a) → Good (decls ns file) (.struct fs a) →
        NearDatum file scope s (.struct vs) := by
      intro s ex scope hs hf hex hrd hg
      generalize ht : RType.struct fs a = t at hrd
      cases hrd with
      | @scalar _ _ _ u h1 =>
        obtain ⟨hb, -⟩ := scalar_bare h1
        cases u <;> simp [RType.withAttrs, Bare] at ht hb
      | reference => cases ht
      | message h1 h2 h3 =>
        obtain ⟨e, scope', h4⟩ := hf h1
        obtain ⟨rfl, rfl, l, rest, m, rfl, h5, h6, -⟩ := finds_decl hu h4 hs h2
        cases ht
        exact .other h1 h4 (hmsg _ _ _ _ _ _ h5 h6 rfl h3 (by simpa only [Good] using hg))
      | enum h1 h2 => cases ht
    refine ⟨htype, ?_, hmsg, by simp, by simp, by simp, by simp⟩
    intro e scope hs hf hrd hg
    cases hrd with
    | required hrd => exact .value (by simp) (htype _ _ _ hs (hf _ (.field (List.mem_singleton.mpr rfl))) (.inr ⟨_, rfl⟩) hrd hg)
  | @union reg ts t x a ht h ih =>
    intro hr
    have ih := ih hr
    refine ⟨fun s ex scope _ _ _ hrd => absurd rfl ((reads_bare hrd).2.2 _ _), ?_, by simp, by simp, by simp, by simp, by simp⟩
    intro e scope hs hf hrd hg
    cases hrd with
    | required hrd => exact absurd rfl ((reads_bare hrd).2.2 _ _)
    | optional hcard _ hrd =>
      simp only [Good, GoodAll, and_true, true_and] at hg
      simp only [List.mem_cons, List.not_mem_nil, or_false] at ht
      rcases ht with rfl | rfl
      · rw [ih.null _ rfl]
        exact .absent (by rcases hcard with rfl | rfl <;> simp)
      · exact .value (by rcases hcard with rfl | rfl <;> simp)
          (ih.type _ _ _ hs (hf _ (.field (List.mem_singleton.mpr rfl))) (.inl rfl) hrd hg)
    | repeated hrd =>
      simp only [Good, GoodAll, and_true, true_and] at hg
      simp only [List.mem_cons, List.not_mem_nil, or_false] at ht
      rcases ht with rfl | rfl
      · rw [ih.null _ rfl]
        exact .absent (by simp)
      · obtain ⟨xs, rfl, hxs⟩ := ih.list _ _ _ _ _ _ hs (hf _ (.field (List.mem_singleton.mpr rfl))) rfl hrd hg
        exact .repeated hxs
    | map h1 h2 hrd =>
      simp only [Good, GoodAll, and_true, true_and] at hg
      simp only [List.mem_cons, List.not_mem_nil, or_false] at ht
      rcases ht with rfl | rfl
      · rw [ih.null _ rfl]
        exact .noMap
      · obtain ⟨ps, rfl, hk, hv⟩ := ih.map _ _ _ _ _ _ hs (hf _ (.value (List.mem_singleton.mpr rfl))) rfl h1 hrd hg.2
        exact .map hk hv
    | oneof hms =>
      simp only [Good, GoodAll, true_and] at hg
      rcases List.mem_cons.mp ht with rfl | ht
      · rw [ih.null _ rfl]
        exact .unset
      · obtain ⟨m, k, s, card, h1, h2⟩ := members_of hms ht
        exact .oneof h1 (ih.type _ _ _ hs (hf _ (.member (List.mem_singleton.mpr rfl) h1)) (.inr ⟨_, rfl⟩) h2 (goodAll_mem hg ht))
  | @reference reg r a t x hres h ih =>
    intro hr
    have htype : ∀ s ex scope, Scope file scope → (Spec.scalar s = .none → ∃ e scope', Finds file scope s e scope') → Added ex →
        Reads (decls ns file) ns s ex (.proxy r a) → Good (decls ns file) (.proxy r a) →
        NearDatum file scope s x := by
      intro s ex scope hs hf hex hrd hg
      generalize ht : RType.proxy r a = u at hrd
      cases hrd with
      | @scalar _ _ _ u h1 =>
        obtain ⟨-, hp⟩ := scalar_bare h1
        cases u <;> simp [RType.withAttrs] at ht <;> exact absurd rfl (hp _ _)
      | reference h1 =>
        cases ht
        have hr' : GoodReg (decls ns file) (r.getD reg) := by
          cases r with
          | none => exact hr
          | some r => simp only [Good] at hg; exact hg
        obtain ⟨e, scope', h4⟩ := hf h1
        rcases resolve_def hr' (full_dot _ _) hex hres with ⟨ns', n, es, fs, h2, rfl, h3, h5⟩ | ⟨ns', n, values, h2, rfl⟩
        · obtain ⟨rfl, rfl, l, rest, m, rfl, h6, h7, -⟩ := finds_decl hu h4 hs h2
          exact .other h1 h4 ((ih hr').message _ _ _ _ _ _ h6 h7 rfl h3 h5)
        · obtain ⟨rfl, -⟩ := finds_decl hu h4 hs h2
          exact .other h1 h4 ((ih hr').enum _ _ _ _ rfl)
      | message => cases ht
      | enum => cases ht
    refine ⟨htype, ?_, by simp, by simp, by simp, by simp, by simp⟩
    intro e scope hs hf hrd hg
    cases hrd with
    | required hrd => exact .value (by simp) (htype _ _ _ hs (hf _ (.field (List.mem_singleton.mpr rfl))) (.inr ⟨_, rfl⟩) hrd hg)

/-! ## From data to values -/

theorem enum_near_held {reg : Registry} {file : List Elem} {scope : List (List Elem)} {n : String}
    {values : List (PyVal × Int)} {a : Attrs} {x : Val} (h : NearDeclared file scope (.enum n values) x) :
    HoldsIn reg (.enum (.list (values.map (·.1))) a) x := by
  cases h with
  | enum h => exact .leaf rfl (.enum (List.mem_map.mpr ⟨_, h, rfl⟩))

mutual
theorem datum_near_held {ns : String} {file : List Elem} {root : RType} (hu : Unique file) (hc : Closed root)
    {reg : Registry} {scope : List (List Elem)} {s : String} {x : Val} {ex : Dict} {t : RType}
    (h : NearDatum file scope s x) (hs : Scope file scope) (hr : Reads (decls ns file) ns s ex t) (hex : Added ex)
    (hsub : Sub t root) : HoldsIn reg t x :=
  match h with
  | .scalar h => by
    have hne : Spec.scalar s ≠ .none := by
      cases h with
      | scalar h hn => obtain ⟨u, h1, -⟩ := scalar_holds h hn; rw [h1]; simp
      | string => decide +kernel
      | bytes => decide +kernel
    cases hr with
    | scalar h4 =>
      obtain ⟨h2, h3⟩ := closed_holdsScalar h4 h
      exact .leaf (by rw [AvroData.children_withAttrs', h2]) (holds_withAttrs h3 (same_added hex))
    | reference h4 => exact absurd h4 hne
    | message h4 => exact absurd h4 hne
    | enum h4 => exact absurd h4 hne
  | .other (e := e) (scope' := scope') h0 hf hd => by
    cases hr with
    | scalar h4 => rw [h0] at h4; cases h4
    | reference _ => exact absurd hsub (hc _ _)
    | message _ hd' hfs =>
      obtain ⟨he, hns, l, rest, m, hsc, h1, h2, h3, h4⟩ := finds_decl hu hf hs hd'
      rw [hns] at hfs
      exact message_near_held hu hc hd he.symm hsc h1 (he ▸ h2) hfs hsub
    | enum _ hd' =>
      obtain ⟨he, -⟩ := finds_decl hu hf hs hd'
      rw [← he] at hd
      exact enum_near_held hd
theorem message_near_held {ns : String} {file : List Elem} {root : RType} (hu : Unique file) (hc : Closed root)
    {reg : Registry} {l : List Elem} {rest scope : List (List Elem)} {n : String} {e : Elem} {es : List Elem} {x : Val}
    {a : Attrs} {fs : List RType}
    (h : NearDeclared file scope e x) (he : e = .message n es) (hsc : scope = l :: rest) (hs : Scope file (l :: rest))
    (hm : .message n es ∈ l)
    (hr : Fields (decls ns file) ns es fs) (hsub : Sub (.struct fs a) root) : HoldsIn reg (.struct fs a) x :=
  match h with
  | .enum _ => by cases he
  | .message (n := n') (es := es') hl hx => by
    have hes : es' = es := by cases he; rfl
    obtain ⟨h1, h2⟩ := fields_each hr
    refine .struct (h1.symm.trans (hes ▸ hl)) fun i f x hf hxi => ?_
    obtain ⟨e, h3, h4⟩ := h2 i f hf
    exact element_near_held hu hc (hx i e x (by rw [hes]; exact h3) hxi) (by rw [hes, hsc]; exact .message hs hm) h4
      (sub_trans (.field (List.mem_of_getElem? hf) .refl) hsub)
theorem element_near_held {ns : String} {file : List Elem} {root : RType} (hu : Unique file) (hc : Closed root)
    {reg : Registry} {scope : List (List Elem)} {e : Elem} {x : Val} {t : RType} (h : NearElement file scope e x)
    (hs : Scope file scope) (hr : FieldReads (decls ns file) ns e t) (hsub : Sub t root) : HoldsIn reg t x :=
  match h with
  | .value hcard hd => by
    cases hr with
    | required hr => exact datum_near_held hu hc hd hs hr (.inr ⟨_, rfl⟩) hsub
    | optional _ _ hr =>
      exact .union (List.mem_cons_of_mem _ List.mem_cons_self)
        (datum_near_held hu hc hd hs hr (.inl rfl) (sub_trans (.member (List.mem_cons_of_mem _ List.mem_cons_self) .refl) hsub))
    | null _ =>
      have : x = .null := by
        cases hd with
        | scalar h =>
          generalize hq : "google.protobuf.NullValue" = q at h
          cases h with
          | scalar h => cases h <;> first | rfl | (exact absurd hq (by decide)) | (subst hq; simp_all)
          | string => exact absurd hq (by decide)
          | bytes => exact absurd hq (by decide)
        | other h => exact absurd h (by decide +kernel)
      subst this
      exact .leaf rfl .null
    | repeated _ => exact absurd rfl hcard
  | .absent hcard => by
    cases hr with
    | required => simp at hcard
    | optional => exact .union List.mem_cons_self (.leaf rfl .null)
    | null => exact .leaf rfl .null
    | repeated => exact .union List.mem_cons_self (.leaf rfl .null)
  | .repeated hd => by
    cases hr with
    | optional hcard => simp at hcard
    | null hcard => simp at hcard
    | repeated hr =>
      refine .union (List.mem_cons_of_mem _ List.mem_cons_self) (.list fun y hy => ?_)
      exact datum_near_held hu hc (hd y hy) hs hr (.inl rfl)
        (sub_trans (.list .refl) (sub_trans (.member (List.mem_cons_of_mem _ List.mem_cons_self) .refl) hsub))
  | .noMap => by
    cases hr with
    | map => exact .union List.mem_cons_self (.leaf rfl .null)
  | .map hk hv => by
    cases hr with
    | map h1 h2 hr =>
      have hm : Sub (.map _ _ {}) root := sub_trans (.member (List.mem_cons_of_mem _ List.mem_cons_self) .refl) hsub
      refine .union (List.mem_cons_of_mem _ List.mem_cons_self) (.map (fun p hp => ?_) fun p hp => ?_)
      · have := datum_near_held hu hc (ns := ns) (reg := reg) (ex := []) (hk p hp) hs (.scalar h1) (.inl rfl) (t := _)
          (by simp only [Dict.update, List.foldl]; rw [withAttrs_attrs]; exact sub_trans (.key .refl) hm)
        simp only [Dict.update, List.foldl] at this
        rwa [withAttrs_attrs] at this
      · exact datum_near_held hu hc (hv p hp) hs hr (.inl rfl) (sub_trans (.value .refl) hm)
  | .unset => by
    cases hr with
    | oneof => exact .union List.mem_cons_self (.leaf rfl .null)
  | .oneof hm hd => by
    cases hr with
    | oneof hr =>
      obtain ⟨t, ht, hr⟩ := members_mem hr hm
      exact .union (List.mem_cons_of_mem _ ht) (datum_near_held hu hc hd hs hr (.inr ⟨_, rfl⟩)
        (sub_trans (.member (List.mem_cons_of_mem _ ht) .refl) hsub))
end

/-! ## From nearly data to data -/

theorem finds_in {file : List Elem} {scope scope' : List (List Elem)} {s : String} {e : Elem}
    (h : Finds file scope s e scope') (hs : Scope file scope) :
    ∃ l rest, scope' = l :: rest ∧ Scope file (l :: rest) ∧ e ∈ l := by
  obtain ⟨l, rest, m, h1, h2, h3, -⟩ := finds_scope h hs
  exact ⟨l, rest, h1, h2, h3⟩

theorem small_part {x y : Val} (h : Small x) (hp : ∀ z, Part z y → Part z x) : Small y :=
  ⟨fun s hs => h.1 s (hp _ hs), fun n hn => h.2 n (hp _ hn)⟩

theorem filled_part {file : List Elem} {x y : Val} (h : Filled x ∨ Single file) (hp : ∀ z, Part z y → Part z x) :
    Filled y ∨ Single file :=
  h.imp (fun h h' => h (hp _ h')) id

mutual
theorem datum_of_near {file : List Elem} {scope : List (List Elem)} {s : String} {x : Val} (h : NearDatum file scope s x)
    (hs : Scope file scope) (h1 : Small x) (h2 : Filled x ∨ Single file) : Datum file scope s x :=
  match h with
  | .scalar h => by
    cases h with
    | scalar h _ => exact .scalar h
    | string h => exact absurd (h1.1 _ .refl) (by omega)
    | bytes => exact absurd (h1.2 _ .refl) (by omega)
  | .other h0 hf hd => by
    exact .other h0 hf (declared_of_near hd (finds_in hf hs) h1 h2)
theorem declared_of_near {file : List Elem} {scope : List (List Elem)} {e : Elem} {x : Val}
    (h : NearDeclared file scope e x) (hs : ∃ l rest, scope = l :: rest ∧ Scope file (l :: rest) ∧ e ∈ l) (h1 : Small x)
    (h2 : Filled x ∨ Single file) : Declared file scope e x :=
  match h with
  | .enum h => .enum h
  | .message hl hx => .message hl fun i e x he hxi =>
    element_of_near (hx i e x he hxi) (by obtain ⟨l, rest, h3, h4, h5⟩ := hs; rw [h3]; exact .message h4 h5)
      (List.mem_cons_self) (mem_fields he)
      (small_part h1 fun z hz => .struct (List.mem_of_getElem? hxi) hz)
      (filled_part h2 fun z hz => .struct (List.mem_of_getElem? hxi) hz)
theorem element_of_near {file : List Elem} {scope : List (List Elem)} {es : List Elem} {e : Elem} {x : Val}
    (h : NearElement file scope e x) (hs : Scope file scope) (hes : es ∈ scope) (he : e ∈ es)
    (h1 : Small x) (h2 : Filled x ∨ Single file) : Element file scope e x :=
  match h with
  | .value hcard hd => .value hcard (datum_of_near hd hs h1 h2)
  | .absent (card := card) hcard => by
    match card with
    | .none => exact .absent (.inl rfl)
    | some .optional => exact .absent (.inr rfl)
    | some .required => exact absurd rfl hcard
    | some .repeated =>
      rcases h2 with h2 | h2
      · exact absurd .refl h2
      · exact absurd rfl ((h2 _ (scope_within hs es hes _ he)).1 _ _ _ _ rfl)
  | .repeated hd => .repeated fun y hy => datum_of_near (hd y hy) hs (small_part h1 fun z hz => .list hy hz)
      (filled_part h2 fun z hz => .list hy hz)
  | .noMap => by
    rcases h2 with h2 | h2
    · exact absurd .refl h2
    · exact absurd rfl ((h2 _ (scope_within hs es hes _ he)).2 _ _ _ _)
  | .map hk hv => .map (fun p hp => datum_of_near (hk p hp) hs (small_part h1 fun z hz => .key hp hz)
        (filled_part h2 fun z hz => .key hp hz))
      fun p hp => datum_of_near (hv p hp) hs (small_part h1 fun z hz => .value hp hz)
        (filled_part h2 fun z hz => .value hp hz)
  | .unset => .unset
  | .oneof hm hd => .oneof hm (datum_of_near hd hs h1 h2)
end

end Recap.ProtoData
