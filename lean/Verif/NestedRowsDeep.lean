import Verif.NestedRowsUnions

/-!
# C147: unions inside other types of Hive

Rows of tables with unions anywhere in the types of their columns, whose members are told apart in JSON.
-/

set_option autoImplicit false

namespace Recap.NestedRows

open RType Recap.Values Recap.Spec Recap.Rows
open Recap.JsonData
open Recap.Json (Writable convertF)
open Recap.Json.Spec (nameOf OptionalField)
open Recap.Commands.Spec (Named NamedAll FieldNames)
open Recap.Relational (bind_ok)
open Recap.Hive (HType)

/-! ## Specification -/

mutual
/-- The alternatives of a type: unions in a union are alternatives of it. -/
def leaves : HType → List HType
  | .union ts => leavesAll ts
  | .prim c => [.prim c]
  | .decimal p q => [.decimal p q]
  | .varchar n => [.varchar n]
  | .char n => [.char n]
  | .map k v => [.map k v]
  | .list e => [.list e]
  | .struct fs => [.struct fs]
/-- The alternatives of several types. -/
def leavesAll : List HType → List HType
  | [] => []
  | t :: ts => leaves t ++ leavesAll ts
end

/-- A type without `void` and types that are not known, in which the alternatives of each union have values of different kinds in JSON. -/
inductive Told : HType → Prop
  | prim {c} : c ≠ .void → c ≠ .other → Told (.prim c)
  | decimal {p q} : Told (.decimal p q)
  | varchar {n} : Told (.varchar n)
  | char {n} : Told (.char n)
  | map {k v} : Told v → Told (.map k v)
  | list {e} : Told e → Told (.list e)
  | struct {fs} : (∀ f ∈ fs, Told (Prod.snd f)) → Told (.struct fs)
  | union {ts} : (∀ t ∈ ts, Told t) → ((leavesAll ts).map jsonKind).Nodup → Told (.union ts)

/-- In the value, which is of the type, no element of a list and no value of a map is null, and no field of a union type, unless it
has one alternative. -/
inductive Whole : HType → Val → Prop
  | null {h} : Whole h .null
  | prim {c x} : Whole (.prim c) x
  | decimal {p q x} : Whole (.decimal p q) x
  | varchar {n x} : Whole (.varchar n) x
  | char {n x} : Whole (.char n) x
  | list {e vs} : (∀ x ∈ vs, x ≠ .null) → (∀ x ∈ vs, Whole e x) → Whole (.list e) (.list vs)
  | map {k v ps} : (∀ p ∈ ps, Prod.snd p ≠ .null) → (∀ p ∈ ps, Whole v (Prod.snd p)) → Whole (.map k v) (.map ps)
  | struct {fs vs} : (∀ (i : Nat) f x, fs[i]? = some f → vs[i]? = some x → Whole (Prod.snd f) x) →
      (∀ (i : Nat) f x, fs[i]? = some f → vs[i]? = some x → (leaves (Prod.snd f)).length ≠ 1 → x ≠ .null) →
      Whole (.struct fs) (.struct vs)
  | union {ts x} : (∀ t ∈ ts, HiveStored (fun _ _ => True) t x → Whole t x) → Whole (.union ts) x

/-! ## Alternatives -/

theorem mem_leavesAll {l : HType} : ∀ {ts : List HType}, l ∈ leavesAll ts ↔ ∃ t ∈ ts, l ∈ leaves t
  | [] => by simp [leavesAll]
  | t :: ts => by simp [leavesAll, mem_leavesAll (ts := ts)]

theorem leaves_kind {h : HType} (hs : (jsonKind h).isSome) : leaves h = [h] := by
  cases h <;> first | (cases hs; done) | rw [leaves]

theorem told_leaves {h : HType} (hc : Told h) : ∀ l ∈ leaves h, Told l ∧ (jsonKind l).isSome := by
  have single : ∀ {h : HType}, Told h → (jsonKind h).isSome → ∀ l ∈ leaves h, Told l ∧ (jsonKind l).isSome := by
    intro h ht hs l hl
    rw [leaves_kind hs] at hl
    cases List.mem_singleton.mp hl
    exact ⟨ht, hs⟩
  induction hc with
  | @prim c hv ho =>
    refine single (.prim hv ho) ?_
    cases c <;> first | exact absurd rfl hv | exact absurd rfl ho | rfl
  | decimal => exact single .decimal rfl
  | varchar => exact single .varchar rfl
  | char => exact single .char rfl
  | map h _ => exact single (.map h) rfl
  | list h _ => exact single (.list h) rfl
  | struct h _ => exact single (.struct h) rfl
  | union _ _ ih =>
    intro l hl
    rw [leaves] at hl
    obtain ⟨t, ht, hl⟩ := mem_leavesAll.mp hl
    exact ih t ht l hl

theorem stored_leaf {h : HType} (hc : Told h) {x : Val} (h0 : x ≠ .null) : HiveStored (fun _ _ => True) h x → Whole h x →
    ∃ l ∈ leaves h, HiveStored (fun _ _ => True) l x ∧ Whole l x := by
  induction hc with
  | prim => exact fun h1 h2 => ⟨_, by rw [leaves]; exact List.mem_singleton.mpr rfl, h1, h2⟩
  | decimal => exact fun h1 h2 => ⟨_, by rw [leaves]; exact List.mem_singleton.mpr rfl, h1, h2⟩
  | varchar => exact fun h1 h2 => ⟨_, by rw [leaves]; exact List.mem_singleton.mpr rfl, h1, h2⟩
  | char => exact fun h1 h2 => ⟨_, by rw [leaves]; exact List.mem_singleton.mpr rfl, h1, h2⟩
  | map => exact fun h1 h2 => ⟨_, by rw [leaves]; exact List.mem_singleton.mpr rfl, h1, h2⟩
  | list => exact fun h1 h2 => ⟨_, by rw [leaves]; exact List.mem_singleton.mpr rfl, h1, h2⟩
  | struct => exact fun h1 h2 => ⟨_, by rw [leaves]; exact List.mem_singleton.mpr rfl, h1, h2⟩
  | union _ _ ih =>
    intro h1 h2
    cases h1 with
    | null => exact absurd rfl h0
    | union hm h1 =>
      cases h2 with
      | null => exact absurd rfl h0
      | union h2 =>
        obtain ⟨l, hl, h⟩ := ih _ hm h1 (h2 _ hm h1)
        exact ⟨l, by rw [leaves]; exact mem_leavesAll.mpr ⟨_, hm, hl⟩, h⟩

theorem written_leaf {h : HType} (hc : Told h) {x : Val} {j : PyVal} (h0 : x ≠ .null) : HiveWritten true h x j →
    ∃ l ∈ leaves h, HiveWritten true l x j := by
  induction hc with
  | prim => exact fun h1 => ⟨_, by rw [leaves]; exact List.mem_singleton.mpr rfl, h1⟩
  | decimal => exact fun h1 => ⟨_, by rw [leaves]; exact List.mem_singleton.mpr rfl, h1⟩
  | varchar => exact fun h1 => ⟨_, by rw [leaves]; exact List.mem_singleton.mpr rfl, h1⟩
  | char => exact fun h1 => ⟨_, by rw [leaves]; exact List.mem_singleton.mpr rfl, h1⟩
  | map => exact fun h1 => ⟨_, by rw [leaves]; exact List.mem_singleton.mpr rfl, h1⟩
  | list => exact fun h1 => ⟨_, by rw [leaves]; exact List.mem_singleton.mpr rfl, h1⟩
  | struct => exact fun h1 => ⟨_, by rw [leaves]; exact List.mem_singleton.mpr rfl, h1⟩
  | union _ _ ih =>
    intro h1
    cases h1 with
    | null => exact absurd rfl h0
    | union hm h1 =>
      obtain ⟨l, hl, h⟩ := ih _ hm h1
      exact ⟨l, by rw [leaves]; exact mem_leavesAll.mpr ⟨_, hm, hl⟩, h⟩

/-! ## What is read -/

/-- What the reader makes of a type: `true` for the result of the reader, `false` for the type inside an optional one. -/
inductive ReadAs : Bool → HType → RType → Prop
  | leaf {h b} : Hive.flatten b = b → kindOf b = jsonKind h → (kindOf b).isSome → b.isNull = false → Distinct b →
      (∀ live x j, HiveStored (fun _ _ => True) h x → x ≠ .null → HiveWritten true h x j → Shaped live b j) → ReadAs false h b
  | list {e t n v a} : ReadAs true e t → ReadAs false (.list e) (.list t n v a)
  | map {k v k' t a} : ReadAs true v t → ReadAs false (.map k v) (.map k' t a)
  | struct {fs ts a} : ts.length = fs.length →
      (∀ (i : Nat) f t, fs[i]? = some f → ts[i]? = some t → nameOf t = some (.str (Prod.fst f))) →
      (∀ (i : Nat) f t, fs[i]? = some f → ts[i]? = some t → ReadAs true (Prod.snd f) t) →
      ReadAs false (.struct fs) (.struct ts a)
  | opt {h b a} : ReadAs false h b → "default" ∈ Dict.keys a.extra → ReadAs true h (.union [.null {}, b] a)
  | union {ts bs a} : (∀ t ∈ ts, Told t) → ((leavesAll ts).map jsonKind).Nodup →
      bs.map kindOf = (leavesAll ts).map jsonKind → "default" ∈ Dict.keys a.extra →
      (∀ (i : Nat) t b, (leavesAll ts)[i]? = some t → bs[i]? = some b → ReadAs false t b) →
      ReadAs true (.union ts) (.union (.null {} :: bs) a)

theorem ReadAs.bare {h : HType} {b : RType} (hr : ReadAs false h b) :
    kindOf b = jsonKind h ∧ (kindOf b).isSome ∧ b.isNull = false := by
  cases hr with
  | leaf _ h1 h2 h3 => exact ⟨h1, h2, h3⟩
  | list => exact ⟨rfl, rfl, rfl⟩
  | map => exact ⟨rfl, rfl, rfl⟩
  | struct => exact ⟨rfl, rfl, rfl⟩

theorem kind_not_null {t : HType} : jsonKind t ≠ some "null" := by
  intro e
  unfold jsonKind at e
  split at e <;> simp at e

theorem absorb_bare {acc : List RType} {b : RType} (hs : (kindOf b).isSome) (hk : kindOf b ∉ acc.map kindOf) :
    Hive.absorb acc b = acc ++ [b] := by
  have hb : acc.any (fun u => pyEq u b) = false := by
    rw [List.any_eq_false]
    intro u hu
    rw [pyEq_kind]
    · simp
    · intro e
      exact hk (e ▸ List.mem_map_of_mem hu)
  cases b <;> first | (cases hs; done) | simp [Hive.absorb, hb]

theorem fold_bare : ∀ (cs acc : List RType), (∀ c ∈ cs, (kindOf c).isSome) → (acc.map kindOf ++ cs.map kindOf).Nodup →
    cs.foldl Hive.absorb acc = acc ++ cs
  | [], acc, _, _ => by simp
  | c :: cs, acc, hs, hd => by
    have hk : kindOf c ∉ acc.map kindOf := fun hm =>
      (List.nodup_append.mp hd).2.2 _ hm _ (List.mem_cons_self ..) rfl
    rw [List.foldl_cons, absorb_bare (hs c (List.mem_cons_self ..)) hk,
      fold_bare cs (acc ++ [c]) (fun d hd => hs d (List.mem_cons_of_mem _ hd)) (by simpa using hd)]
    simp

theorem flattenAll_kinds : ∀ bs : List RType, (Hive.flattenAll bs).map kindOf = bs.map kindOf
  | [] => by rw [Hive.flattenAll]
  | b :: bs => by rw [Hive.flattenAll, List.map_cons, List.map_cons, kindOf_flatten, flattenAll_kinds bs]

theorem kinds_nodup {ts : List HType} {bs : List RType} (hd : (ts.map jsonKind).Nodup) (hk : bs.map kindOf = ts.map jsonKind) :
    ((.null {} :: bs : List RType).map kindOf).Nodup := by
  rw [List.map_cons, hk, List.nodup_cons]
  refine ⟨fun hm => ?_, hd⟩
  obtain ⟨t, -, e⟩ := List.mem_map.mp hm
  exact kind_not_null e

theorem kinds_some {ts : List HType} {bs : List RType} (hs : ∀ t ∈ ts, (jsonKind t).isSome)
    (hk : bs.map kindOf = ts.map jsonKind) : ∀ b ∈ bs, (kindOf b).isSome := by
  intro b hb
  have : kindOf b ∈ ts.map jsonKind := hk ▸ List.mem_map_of_mem hb
  obtain ⟨t, ht, e⟩ := List.mem_map.mp this
  rw [← e]
  exact hs t ht

/-- Flattening changes nothing that matters. -/
theorem readAs_flatten {s : Bool} {h : HType} {t : RType} (hr : ReadAs s h t) :
    ReadAs s h (Hive.flatten t) ∧ (s = true → nameOf (Hive.flatten t) = nameOf t) := by
  induction hr with
  | leaf h0 h1 h2 h3 h4 h5 => exact ⟨by rw [h0]; exact .leaf h0 h1 h2 h3 h4 h5, nofun⟩
  | list _ ih => exact ⟨by rw [Hive.flatten]; exact .list ih.1, nofun⟩
  | map _ ih => exact ⟨by rw [Hive.flatten]; exact .map ih.1, nofun⟩
  | struct hl hn _ ih =>
    refine ⟨?_, nofun⟩
    rw [Hive.flatten]
    refine .struct (by rw [flattenAll_length, hl]) (fun i f t hf ht => ?_) (fun i f t hf ht => ?_)
    · obtain ⟨u, hu, rfl⟩ := flattenAll_get _ i t ht
      rw [(ih i f u hf hu).2 rfl, hn i f u hf hu]
    · obtain ⟨u, hu, rfl⟩ := flattenAll_get _ i t ht
      exact (ih i f u hf hu).1
  | opt hb hd ih =>
    rw [flatten_pair hb.bare.2.1 hb.bare.2.2]
    exact ⟨.opt ih.1 hd, fun _ => rfl⟩
  | @union ts bs a ht hd hk hdf _ ih =>
    have hs : ∀ t ∈ leavesAll ts, (jsonKind t).isSome := fun l hl => by
      obtain ⟨t, ht', hl⟩ := mem_leavesAll.mp hl
      exact (told_leaves (ht t ht') l hl).2
    have e : Hive.flatten (.union (.null {} :: bs) a) = .union (.null {} :: Hive.flattenAll bs) a := by
      rw [Hive.flatten, Hive.flattenAll, List.foldl_cons]
      have e2 : Hive.absorb [] (Hive.flatten (.null {})) = [.null {}] := rfl
      have hk' := (flattenAll_kinds bs).trans hk
      rw [e2, fold_bare _ _ (kinds_some hs hk') (by simpa using kinds_nodup hd hk')]
      rfl
    rw [e]
    refine ⟨.union ht hd ((flattenAll_kinds bs).trans hk) hdf fun i t b hti hb => ?_, fun _ => rfl⟩
    obtain ⟨u, hu, rfl⟩ := flattenAll_get _ i b hb
    exact (ih i t u hti hu).1

/-- What is read is a union of null and the alternatives. -/
theorem ReadAs.alternatives {t : HType} {u : RType} (hr : ReadAs true t u) : ∃ bs a, u = .union (.null {} :: bs) a ∧
    bs.map kindOf = (leaves t).map jsonKind ∧
    ∀ (i : Nat) l b, (leaves t)[i]? = some l → bs[i]? = some b → ReadAs false l b := by
  cases hr with
  | @opt _ b a hb hd =>
    obtain ⟨h1, h2, -⟩ := hb.bare
    rw [leaves_kind (h1 ▸ h2)]
    refine ⟨[b], a, rfl, by simp [h1], fun i l c hl hc => ?_⟩
    match i, hl, hc with
    | 0, hl, hc => cases hl; cases hc; exact hb
  | union _ _ hk _ hr =>
    rw [leaves]
    exact ⟨_, _, rfl, hk, hr⟩

/-- Alternatives are taken up if nothing of their kinds is there. -/
theorem absorb_several {acc bs : List RType} {a : Attrs} (hn : .null {} ∈ acc)
    (hk : ∀ b ∈ bs, kindOf b ∉ acc.map kindOf) : Hive.absorb acc (.union (.null {} :: bs) a) = acc ++ bs := by
  have hn' : acc.any (fun u => pyEq u (.null {})) = true := List.any_eq_true.mpr ⟨_, hn, by rfl⟩
  have hf : bs.filter (fun t => !acc.any (fun u => pyEq u t)) = bs := by
    rw [List.filter_eq_self]
    intro b hb
    have : acc.any (fun u => pyEq u b) = false := by
      rw [List.any_eq_false]
      intro u hu
      rw [pyEq_kind]
      · simp
      · intro e
        exact hk b hb (e ▸ List.mem_map_of_mem hu)
    rw [this]
    rfl
  rw [Hive.absorb, List.filter_cons, hn', hf]
  rfl

theorem readAs_members : ∀ (ts : List HType) (us acc : List RType), Hive.parseAll ts = .ok us →
    (∀ t ∈ ts, ∀ u, Hive.parse {} t = .ok u → ReadAs true t u) →
    .null {} ∈ acc → (acc.map kindOf ++ (leavesAll ts).map jsonKind).Nodup →
    ∃ bs, (Hive.flattenAll us).foldl Hive.absorb acc = acc ++ bs ∧ bs.map kindOf = (leavesAll ts).map jsonKind ∧
      ∀ (i : Nat) t b, (leavesAll ts)[i]? = some t → bs[i]? = some b → ReadAs false t b
  | [], us, acc, h, _, _, _ => by
    rw [Hive.parseAll] at h
    cases h
    exact ⟨[], by simp [Hive.flattenAll], by simp [leavesAll], by simp⟩
  | t :: ts, us, acc, h, hs, hn, hd => by
    rw [Hive.parseAll] at h
    obtain ⟨u, h1, h⟩ := bind_ok h
    obtain ⟨us', h2, h⟩ := bind_ok h
    cases h
    obtain ⟨cs, a, e1, hkc, hrc⟩ := (readAs_flatten (hs t (List.mem_cons_self ..) u h1)).1.alternatives
    rw [leavesAll, List.map_append, ← hkc] at hd
    have hk : ∀ b ∈ cs, kindOf b ∉ acc.map kindOf := fun b hb hm =>
      (List.nodup_append.mp hd).2.2 _ hm _ (List.mem_append_left _ (List.mem_map_of_mem hb)) rfl
    obtain ⟨bs, e, hkinds, hall⟩ := readAs_members ts us' (acc ++ cs) h2
      (fun t' ht' => hs t' (List.mem_cons_of_mem _ ht')) (List.mem_append_left _ hn) (by simpa using hd)
    have hlen : cs.length = (leaves t).length := by simpa using congrArg List.length hkc
    refine ⟨cs ++ bs, ?_, by rw [leavesAll, List.map_append, List.map_append, hkc, hkinds], ?_⟩
    · rw [Hive.flattenAll, List.foldl_cons, e1, absorb_several hn hk, e]
      simp
    · intro i t' c ht' hc
      rw [leavesAll] at ht'
      by_cases hi : i < cs.length
      · rw [List.getElem?_append_left (by omega)] at ht' hc
        exact hrc i t' c ht' hc
      · rw [List.getElem?_append_right (by omega)] at ht' hc
        rw [hlen] at hc
        exact hall _ t' c ht' hc

theorem readAs_finish {h : HType} {b : RType} (h1 : b.isUnion = false) (h2 : b.isNull = false)
    (hb : ∀ a, ReadAs false h (b.withAttrs a)) : ReadAs true h (Hive.finish b) := by
  obtain ⟨a, a', e, hdf⟩ := finish_pair h1 h2
  rw [e]
  exact .opt (hb a) hdf

/-- What is read. -/
theorem readAs_told {h : HType} (hc : Told h) : ∀ {x : Attrs} {t : RType}, Hive.Given x → Hive.parse x h = .ok t →
    ReadAs true h t := by
  induction hc with
  | @prim c hv _ =>
    intro x t _ hp
    rw [Hive.parse] at hp
    obtain ⟨b, h1, hp⟩ := bind_ok hp
    cases hp
    cases c <;> cases h1 <;> first
      | exact absurd rfl hv
      | (refine readAs_finish rfl rfl fun _ => .leaf (by simp [RType.withAttrs, Hive.flatten]) rfl rfl rfl ?_ ?_
         · first | exact .bool | exact .int | exact .float | exact .string | exact .bytes
         · intro live y j hy hy2 hj
           cases hy with
           | null => exact absurd rfl hy2
           | prim hy _ =>
             cases hj with
             | null => exact absurd rfl hy2
             | prim hj =>
               cases hy <;> cases hj <;>
                 first | exact .bool | exact .int | exact .float | exact .whole | exact .string | exact .bytes)
  | decimal =>
    intro x t _ hp
    rw [Hive.parse] at hp
    split at hp
    · cases hp
    · cases hp
      refine readAs_finish rfl rfl fun _ => .leaf (by simp [RType.withAttrs, Hive.flatten]) rfl rfl rfl .bytes ?_
      intro live y j hy hy2 hj
      cases hy with
      | null => exact absurd rfl hy2
      | decimal =>
        cases hj with
        | decimal hj => cases hj; exact .bytes
  | varchar =>
    intro x t _ hp
    rw [Hive.parse] at hp
    cases hp
    refine readAs_finish rfl rfl fun _ => .leaf (by simp [RType.withAttrs, Hive.flatten]) rfl rfl rfl .string ?_
    intro live y j hy hy2 hj
    cases hy with
    | null => exact absurd rfl hy2
    | varchar =>
      cases hj with
      | varchar hj => cases hj; exact .string
  | char =>
    intro x t _ hp
    rw [Hive.parse] at hp
    cases hp
    refine readAs_finish rfl rfl fun _ => .leaf (by simp [RType.withAttrs, Hive.flatten]) rfl rfl rfl .string ?_
    intro live y j hy hy2 hj
    cases hy with
    | null => exact absurd rfl hy2
    | char =>
      cases hj with
      | char hj => cases hj; exact .string
  | map _ ih =>
    intro x t _ hp
    rw [Hive.parse] at hp
    obtain ⟨k, -, hp⟩ := bind_ok hp
    obtain ⟨v, h2, hp⟩ := bind_ok hp
    cases hp
    exact readAs_finish rfl rfl fun _ => .map (ih Hive.given_empty h2)
  | list _ ih =>
    intro x t _ hp
    rw [Hive.parse] at hp
    obtain ⟨e, h1, hp⟩ := bind_ok hp
    cases hp
    exact readAs_finish rfl rfl fun _ => .list (ih Hive.given_empty h1)
  | struct _ ih =>
    intro x t _ hp
    rw [Hive.parse] at hp
    obtain ⟨ts, h1, hp⟩ := bind_ok hp
    cases hp
    obtain ⟨hl, hi⟩ := parseFields_index h1
    refine readAs_finish rfl rfl fun _ => .struct hl (fun i f t hf ht => ?_) (fun i f t hf ht => ?_)
    · rw [Hive.parse_nameOf (Hive.given_column ..) (hi i f t hf ht)]
      rfl
    · exact ih f (List.mem_of_getElem? hf) (Hive.given_column ..) (hi i f t hf ht)
  | @union ts ht hd ih =>
    intro x t _ hp
    rw [Hive.parse] at hp
    obtain ⟨us, h1, hp⟩ := bind_ok hp
    cases hp
    obtain ⟨bs, e, hkinds, hall⟩ := readAs_members ts us [.null {}] h1
      (fun t ht' u hu => ih t ht' Hive.given_empty hu) (List.mem_cons_self ..) (by
      simp only [List.map_cons, List.map_nil, List.cons_append, List.nil_append, List.nodup_cons]
      refine ⟨fun hm => ?_, hd⟩
      obtain ⟨t, -, e⟩ := List.mem_map.mp hm
      exact kind_not_null e)
    have e' : ∀ a, Hive.finish (Hive.flatten (.union (.null {} :: us) a)) = .union (.null {} :: bs) a := by
      intro a
      rw [Hive.flatten, Hive.flattenAll, List.foldl_cons]
      have e2 : Hive.absorb [] (Hive.flatten (.null {})) = [.null {}] := rfl
      rw [e2, e]
      rfl
    rw [e']
    exact .union ht hd hkinds (by simp [Dict.keys]) hall

/-! ## How values are written -/

theorem written_told {h : HType} (hc : Told h) : ∀ {x : Val} {j : PyVal}, HiveStored (fun _ _ => True) h x → Written x j →
    HiveWritten true h x j := by
  induction hc with
  | prim => exact fun _ hj => .prim hj
  | decimal => exact fun _ hj => .decimal hj
  | varchar => exact fun _ hj => .varchar hj
  | char => exact fun _ hj => .char hj
  | map =>
    intro x j hx hj
    cases hx with
    | null => cases hj; exact .null
    | map => cases hj
  | list _ ih =>
    intro x j hx hj
    cases hx with
    | null => cases hj; exact .null
    | list hx =>
      cases hj with
      | list hl hj => exact .list hl fun i y k hy hk => ih (hx y (List.mem_of_getElem? hy)) (hj i y k hy hk)
  | struct =>
    intro x j hx hj
    cases hx with
    | null => cases hj; exact .null
    | struct => cases hj
  | union _ _ ih =>
    intro x j hx hj
    cases hx with
    | null => cases hj; exact .null
    | union hm hx => exact .union hm (ih _ hm hx hj)

/-- A value that is stored as one member of the union is written like one of it. -/
theorem member_told {ts : List HType} {t t' : HType} {x : Val} {j : PyVal} (hd : (ts.map jsonKind).Nodup)
    (hc : ∀ t ∈ ts, Told t) (hs : ∀ t ∈ ts, (jsonKind t).isSome) (ht : t ∈ ts) (ht' : t' ∈ ts)
    (hx : HiveStored (fun _ _ => True) t x) (hj : HiveWritten true t' x j) : HiveWritten true t x j := by
  have hs1 := hs t ht
  have hs2 := hs t' ht'
  cases hj with
  | null => exact .null
  | prim h => exact written_told (hc _ ht) hx h
  | decimal h => exact written_told (hc _ ht) hx h
  | varchar h => exact written_told (hc _ ht) hx h
  | char h => exact written_told (hc _ ht) hx h
  | map h1 h2 =>
    have := nodup_same hd ht ht' (by
      cases hx with
      | prim h => cases h
      | map => rfl
      | union => cases hs1)
    subst this
    exact .map h1 h2
  | list h1 h2 =>
    have := nodup_same hd ht ht' (by
      cases hx with
      | prim h => cases h
      | list => rfl
      | union => cases hs1)
    subst this
    exact .list h1 h2
  | struct h1 h2 =>
    have := nodup_same hd ht ht' (by
      cases hx with
      | prim h => cases h
      | struct => rfl
      | union => cases hs1)
    subst this
    exact .struct h1 h2
  | union => cases hs2

theorem ReadAs.optional {h : HType} {t : RType} (hr : ReadAs true h t) (hl : (leaves h).length = 1) : OptionalField t := by
  cases hr with
  | opt hb hd => exact optional_null hb.bare.2.2 hd
  | @union ts bs a _ _ hk hdf hr =>
    rw [leaves] at hl
    have hlen : bs.length = (leavesAll ts).length := by simpa using congrArg List.length hk
    obtain ⟨b, rfl⟩ := List.length_eq_one_iff.mp (hlen.trans hl)
    exact optional_null (hr 0 _ b (List.getElem?_eq_getElem (by omega)) rfl).bare.2.2 hdf

theorem readAs_shaped (live : Registry) {s : Bool} {h : HType} {t : RType} (hr : ReadAs s h t) : Distinct t ∧
    ∀ x j, HiveStored (fun _ _ => True) h x → Whole h x → x ≠ .null → HiveWritten true h x j → Shaped live t j := by
  induction hr with
  | leaf _ _ _ _ hd hs => exact ⟨hd, fun x j hx _ h0 hj => hs live x j hx h0 hj⟩
  | list _ ih =>
    refine ⟨.list ih.1, fun y j hy hw h0 hj => ?_⟩
    cases hy with
    | null => exact absurd rfl h0
    | @list _ vs hvs =>
      cases hj with
      | @list _ _ js hl hj =>
        cases hw with
        | list hn hs =>
          refine .list fun z hz => ?_
          obtain ⟨i, hi, rfl⟩ := List.getElem_of_mem hz
          have hm : vs[i]'(by omega) ∈ vs := List.getElem_mem _
          exact ih.2 _ _ (hvs _ hm) (hs _ hm) (hn _ hm)
            (hj i _ _ (List.getElem?_eq_getElem _) (List.getElem?_eq_getElem _))
  | map _ ih =>
    refine ⟨.map ih.1, fun y j hy hw h0 hj => ?_⟩
    cases hy with
    | null => exact absurd rfl h0
    | @map _ _ ps _ hvs =>
      cases hj with
      | @map _ _ _ o hl hj =>
        cases hw with
        | map hn hs =>
          refine .map fun kv hkv => ?_
          obtain ⟨i, hi, rfl⟩ := List.getElem_of_mem hkv
          have hm : ps[i]'(by omega) ∈ ps := List.getElem_mem _
          exact ih.2 _ _ (hvs _ hm) (hs _ hm) (hn _ hm)
            (hj i _ _ (List.getElem?_eq_getElem _) (List.getElem?_eq_getElem _))
  | @struct fs ts a hl hn hr ih =>
    constructor
    · refine .struct fun u hu => ?_
      obtain ⟨i, hi', rfl⟩ := List.getElem_of_mem hu
      exact (ih i _ _ (List.getElem?_eq_getElem (by omega)) (List.getElem?_eq_getElem hi')).1
    intro y j hy hw h0 hj
    cases hy with
    | null => exact absurd rfl h0
    | @struct _ vs hlen hst =>
      cases hj with
      | struct k1 k2 =>
        cases hw with
        | struct w1 w2 =>
          have key : ∀ t ∈ ts, ∃ i : Nat, ∃ f y, fs[i]? = some f ∧ vs[i]? = some y ∧ ts[i]? = some t := by
            intro t ht
            obtain ⟨i, hi', rfl⟩ := List.getElem_of_mem ht
            exact ⟨i, fs[i]'(by omega), vs[i]'(by omega), List.getElem?_eq_getElem _, List.getElem?_eq_getElem _,
              List.getElem?_eq_getElem _⟩
          refine .struct ?_ ?_ ?_
          · intro t ht
            obtain ⟨i, f, -, e1, -, e3⟩ := key t ht
            exact ⟨_, hn i f t e1 e3⟩
          · intro t ht n v hn' hv
            obtain ⟨i, f, y, e1, e2, e3⟩ := key t ht
            rw [hn i f t e1 e3] at hn'
            cases hn'
            have hy0 : y ≠ .null := by
              intro e
              rw [(k1 i f y e1 e2).mpr ⟨rfl, e⟩] at hv
              cases hv
            exact (ih i f t e1 e3).2 y v (hst i f y e1 e2) (w1 i f y e1 e2) hy0 (k2 i f y v e1 e2 hv)
          · intro t ht n hn' hv
            obtain ⟨i, f, y, e1, e2, e3⟩ := key t ht
            rw [hn i f t e1 e3] at hn'
            cases hn'
            obtain ⟨-, rfl⟩ := (k1 i f y e1 e2).mp hv
            exact (hr i f t e1 e3).optional (Decidable.byContradiction fun hu => w2 i f _ e1 e2 hu rfl)
  | opt hb hd ih =>
    exact ⟨pair_distinct hb.bare.2.2 hd ih.1, fun x j hx hw h0 hj => (pair_shaped hb.bare.2.2 hd).mpr (ih.2 x j hx hw h0 hj)⟩
  | @union ts bs a ht hd hk _ hr ih =>
    have hto : ∀ t ∈ leavesAll ts, Told t ∧ (jsonKind t).isSome := fun l hl => by
      obtain ⟨t, ht', hl⟩ := mem_leavesAll.mp hl
      exact told_leaves (ht t ht') l hl
    have hs := fun t h => (hto t h).2
    have hlen : bs.length = (leavesAll ts).length := by simpa using congrArg List.length hk
    constructor
    · refine .union ?_ ?_ (kinds_nodup hd hk)
      · intro b hb
        rcases List.mem_cons.mp hb with rfl | hb
        · exact .null
        · obtain ⟨i, hi', rfl⟩ := List.getElem_of_mem hb
          exact (ih i _ _ (List.getElem?_eq_getElem (by omega)) (List.getElem?_eq_getElem hi')).1
      · intro b hb
        rcases List.mem_cons.mp hb with rfl | hb
        · rfl
        · exact kinds_some hs hk b hb
    · intro y j hy hw hy0 hj
      obtain ⟨l, hm, hy, hw⟩ := stored_leaf (.union ht hd) hy0 hy hw
      obtain ⟨l', hm', hj⟩ := written_leaf (.union ht hd) hy0 hj
      rw [leaves] at hm hm'
      have hj := member_told hd (fun t h => (hto t h).1) hs hm hm' hy hj
      obtain ⟨i, hi', rfl⟩ := List.getElem_of_mem hm
      have e1 : (leavesAll ts)[i]? = some (leavesAll ts)[i] := List.getElem?_eq_getElem _
      have e2 : bs[i]? = some (bs[i]'(by omega)) := List.getElem?_eq_getElem _
      exact .union (List.mem_cons_of_mem _ (List.getElem_mem _)) (fun _ => (hr i _ _ e1 e2).bare.2.2)
        ((ih i _ _ e1 e2).2 y j hy hw hy0 hj)

/-! ## The property -/

/-- **C147** for Hive, with unions anywhere (partial): every row, with null left out, is valid, if the values of the
alternatives of each union are of different kinds in JSON and nothing of a union type with several alternatives is null in
the row.  Missing: other unions (`C147_hive_overlap_refuted`), null in columns of unions and `void`
(`C147_hive_required_refuted`), `void` inside other types, and null as an element of a list or a value of a map
(`C147_hive_elements_refuted`). -/
theorem C147_hive_nested_partial (table : Hive.HTable) (t : RType) (live : Registry) (schema : Dict)
    (refs : String → PyVal → Prop) (vs : List Val) (j : PyVal) (hn : FieldNames (· ≠ "") (hiveRow table))
    (ht : Hive.toRecap table = .ok t) (hs : Json.fromRecap live t = .ok schema) (hr : Interprets refs schema)
    (hx : HiveStored (fun _ _ => True) (hiveRow table) (.struct vs)) (hj : HiveWritten true (hiveRow table) (.struct vs) j)
    (hc : ∀ c ∈ table.columns, Told c.type) (hwh : Whole (hiveRow table) (.struct vs)) : Valid refs (.dict schema) j := by
  unfold Hive.toRecap at ht
  obtain ⟨ts, h1, ht⟩ := bind_ok ht
  cases ht
  obtain ⟨hl, hi⟩ := hive_columns live h1
  have hw := hive_writable h1 hn { extra := [("name", .str table.name)] } rfl
  have at' : ∀ {i : Nat} {f : String × HType}, (table.columns.map fun c => (c.name, c.type))[i]? = some f →
      ∃ c, table.columns[i]? = some c ∧ f = (c.name, c.type) := by
    intro i f hf
    rw [List.getElem?_map] at hf
    cases e : table.columns[i]? with
    | none => rw [e] at hf; cases hf
    | some c => rw [e] at hf; cases hf; exact ⟨c, rfl, rfl⟩
  have hread : ReadAs false (hiveRow table) (.struct ts { extra := [("name", .str table.name)] }) := by
    refine .struct (by rw [List.length_map, hl]) (fun i f t hf ht => ?_) (fun i f t hf ht => ?_)
    · obtain ⟨c, e, rfl⟩ := at' hf
      exact (hi i c t e ht).2.1
    · obtain ⟨c, e, rfl⟩ := at' hf
      exact readAs_told (hc c (List.mem_of_getElem? e)) (Hive.given_column ..) (hi i c t e ht).1
  obtain ⟨hdist, hsh⟩ := readAs_shaped live hread
  refine shaped_valid hs (noReference hw) (by rw [noAlias hw]; exact .nil) ?_ hr hdist (hsh _ _ hx hwh nofun hj)
  intro u s hu _ ha
  rw [(hw u (inside_sub hu)).alias] at ha
  cases ha

/-- A union of null and several others, or null alone, is not optional. -/
theorem several_required {ts : List HType} {bs : List RType} {a : Attrs} (hk : bs.map kindOf = ts.map jsonKind)
    (hl : ts.length ≠ 1) : Json.isOptionalField (.union (.null {} :: bs) a) = false := by
  have hlen : bs.length = ts.length := by simpa using congrArg List.length hk
  have hf : bs.filter (fun t => !pyEq t (.null {})) = bs := by
    rw [List.filter_eq_self]
    intro b hb
    have hm : kindOf b ∈ ts.map jsonKind := hk ▸ List.mem_map_of_mem hb
    obtain ⟨t, -, e⟩ := List.mem_map.mp hm
    rw [pyEq_kind (v := .null {}) (by rw [← e]; exact kind_not_null)]
    rfl
  have h0 : pyEq (.null {}) (.null {}) = true := rfl
  simp only [Json.isOptionalField, RType.isOptional, List.filter_cons, h0, hf]
  simp
  omega

/-- **C147 does not hold: columns that are left out.** No object without a member for a column of type `void`, which is always
null, or of a union of several types is valid, for all tables of Hive.  So no row of a table with a `void` column is valid with
null left out, and no row in which a column of such a union is null.  With one alternative, it is (`C147_hive_nested_partial`). -/
theorem C147_hive_required_refuted (table : Hive.HTable) (t : RType) (live : Registry) (schema : Dict)
    (refs : String → PyVal → Prop) (o : Dict) (c : Hive.HColumn) (hn : FieldNames (· ≠ "") (hiveRow table))
    (ht : Hive.toRecap table = .ok t) (hs : Json.fromRecap live t = .ok schema) (hc : c ∈ table.columns)
    (hu : c.type = .prim .void ∨ ∃ ts, c.type = .union ts ∧ Told (.union ts) ∧ (leavesAll ts).length ≠ 1)
    (ho : Dict.get? o c.name = .none) : ¬Valid refs (.dict schema) (.dict o) := by
  intro hv
  unfold Hive.toRecap at ht
  obtain ⟨ts, h1, ht⟩ := bind_ok ht
  cases ht
  obtain ⟨hl, hi⟩ := hive_columns live h1
  have hw := hive_writable h1 hn { extra := [("name", .str table.name)] } rfl
  obtain ⟨i, hi', rfl⟩ := List.getElem_of_mem hc
  obtain ⟨g1, g2, -⟩ := hi i _ _ (List.getElem?_eq_getElem hi') (List.getElem?_eq_getElem (by omega))
  have hreq : Json.isOptionalField (ts[i]'(by omega)) = false := by
    rcases hu with hu | ⟨us, hu, htold, hlen⟩
    · rw [hu, Hive.parse] at g1
      injection g1 with g1
      rw [← g1]
      rfl
    · rw [hu] at g1
      have hr := readAs_told htold (Hive.given_column ..) g1
      generalize ts[i]'(by omega) = u at hr
      cases hr with
      | opt hb => cases hb with
        | leaf _ h2 h3 => rw [h2] at h3; cases h3
      | union _ _ hk => exact several_required hk hlen
  obtain ⟨n, s, defs, hs', -, rfl⟩ := Json.fromRecap_ok hs
  have hv : Valid refs (.dict s) (.dict o) := by
    split at hv
    · exact hv
    · exact (valid_defs (Json.convertF_no_defs hs')).mp hv
  obtain ⟨n', d', h', he⟩ := convert_definition (defined_writable (refs := refs) (live := live) hw) hs'
  rw [he] at hv
  cases n' with
  | zero => cases h'
  | succ n =>
    simp only [convertF, Bool.false_eq_true, if_false] at h'
    obtain ⟨⟨props, req⟩, h1, h'⟩ := ok_bind h'
    cases h'
    have hv := (valid_describe (by split <;> simp [Dict.keys])).mp hv
    have hm : .str (table.columns[i]).name ∈ req := by
      rw [(Json.convertFields_ok h1).1]
      exact List.mem_append_right _ (Json.mem_requiredNames.mpr ⟨_, List.getElem_mem _, g2, hreq⟩)
    have hne : req ≠ [] := by
      intro e
      rw [e] at hm
      cases hm
    obtain ⟨m, e, hin⟩ := (valid_get hv (k := "required") (v := .list req) (by simp [Dict.get?, hne])).required rfl _ rfl _ hm
    cases e
    rw [← Dict.has_iff, Dict.has, ho] at hin
    cases hin

/-- What is read for anything but a union is a pair of null and something else. -/
theorem ReadAs.pair {h : HType} {t : RType} (hr : ReadAs true h t) (hu : ¬∃ ts, h = .union ts) : Pair t := by
  cases hr with
  | @opt _ b a hb hd =>
    obtain ⟨-, hs, hn⟩ := hb.bare
    refine pair_of ?_ ?_ hn hd
    · intro ts a e
      rw [e] at hs
      cases hs
    · cases b <;> first | rfl | (cases hs; done)
  | union => exact absurd ⟨_, rfl⟩ hu

/-- **C147 does not hold: null.** As `C147_hive_null_refuted`, for columns that have unions inside their type. -/
theorem C147_hive_inner_null_refuted (table : Hive.HTable) (t : RType) (live : Registry) (schema : Dict)
    (refs : String → PyVal → Prop) (o : Dict) (c : Hive.HColumn) (hn : FieldNames (· ≠ "") (hiveRow table))
    (hd : (table.columns.map (·.name)).Nodup) (ht : Hive.toRecap table = .ok t) (hs : Json.fromRecap live t = .ok schema)
    (hc : c ∈ table.columns) (hcm : Told c.type) (hu : ¬∃ ts, c.type = .union ts) (ho : Dict.get? o c.name = some .none) :
    ¬Valid refs (.dict schema) (.dict o) := by
  intro hv
  obtain ⟨u, n, d, hp, hw, hk, hv, -⟩ := hive_property hn hd ht hs hc ho hv
  obtain ⟨-, -, -, -, -, -, -, -, hne⟩ := pair_valid ((readAs_told hcm (Hive.given_column ..) hp).pair hu) hw hk hv
  exact hne rfl

/-- **C147 does not hold: elements.** As `C147_hive_elements_refuted`, for elements that have unions inside their type. -/
theorem C147_hive_inner_elements_refuted (table : Hive.HTable) (t : RType) (live : Registry) (schema : Dict)
    (refs : String → PyVal → Prop) (o : Dict) (c : Hive.HColumn) (e : Hive.HType) (js : List PyVal)
    (hn : FieldNames (· ≠ "") (hiveRow table)) (hd : (table.columns.map (·.name)).Nodup) (ht : Hive.toRecap table = .ok t)
    (hs : Json.fromRecap live t = .ok schema) (hc : c ∈ table.columns) (he : c.type = .list e) (hcm : Told e)
    (hu : ¬∃ ts, e = .union ts) (ho : Dict.get? o c.name = some (.list js)) (hjs : .none ∈ js) :
    ¬Valid refs (.dict schema) (.dict o) := by
  intro hv
  obtain ⟨u, n, d, hp, hw, hk, hv, -⟩ := hive_property hn hd ht hs hc ho hv
  rw [he] at hp
  have hr := (readAs_told (.list hcm) (Hive.given_column ..) hp).pair (by rintro ⟨ts, e⟩; cases e)
  rw [Hive.parse] at hp
  obtain ⟨w, h1, hp⟩ := bind_ok hp
  have hre := (readAs_told hcm Hive.given_empty h1).pair hu
  obtain ⟨b, a, n', d', e1, hwb, hk', hv', -⟩ := pair_valid hr hw hk hv
  obtain ⟨b1, b2, e2, -⟩ := finish_pair (b := .list w .none (.bool true) (Hive.columnAttrs c.name c.comment)) rfl rfl
  obtain rfl : b = .list w .none (.bool true) b1 := by
    have : Hive.finish (.list w .none (.bool true) (Hive.columnAttrs c.name c.comment)) = u := by
      injection hp
    rw [e2, e1] at this
    simp only [RType.union.injEq, List.cons.injEq, and_true, true_and] at this
    exact this.1.symm
  obtain ⟨n2, d2, h2, heq⟩ := convert_definition (defined_writable (refs := refs) (live := live) hwb) hk'
  rw [heq] at hv'
  cases n2 with
  | zero => cases h2
  | succ m =>
    simp only [convertF, Bool.false_eq_true, if_false] at h2
    obtain ⟨d3, h3, h2⟩ := ok_bind h2
    cases h2
    have hv' := (valid_describe (by simp [Dict.keys])).mp hv'
    have hnone := (valid_get hv' (k := "items") rfl).items rfl js rfl .none hjs
    obtain ⟨-, -, -, -, -, -, -, -, hne⟩ := pair_valid hre
      ((Hive.everywhere_iff.mp hwb).2 _ (by simp [children])) h3 hnone
    exact hne rfl

/-- The whole number is valid against the schema of an integer or of a float. -/
theorem number_valid {refs : String → PyVal → Prop} {live : Registry} {u : RType} {n : Nat} {d : Dict} {i : Int}
    (hw : Everywhere Writable u) (hk : convertF live n true u = .ok d)
    (hu : (∃ b s a, u = .int b s a) ∨ ∃ b a, u = .float b a) : Valid refs (.dict d) (.int i) := by
  obtain ⟨n2, d2, h2, heq⟩ := convert_definition (defined_writable (refs := refs) (live := live) hw) hk
  rw [heq]
  cases n2 with
  | zero => cases h2
  | succ m =>
    rcases hu with ⟨b, s, a, rfl⟩ | ⟨b, a, rfl⟩
    · simp only [convertF, Bool.false_eq_true, if_false] at h2
      cases h2
      exact (valid_describe (by simp [Dict.keys])).mpr (valid_type .integer (by simp))
    · simp only [convertF, Bool.false_eq_true, if_false] at h2
      cases h2
      exact (valid_describe (by simp [Dict.keys])).mpr (valid_type .whole (by simp))

/-- **C147 does not hold: numbers in unions.** As `C147_hive_overlap_refuted`, for all tables of Hive whose columns have
different names, all types of integers and both types of floats. -/
theorem C147_hive_numbers_refuted (table : Hive.HTable) (t : RType) (live : Registry) (schema : Dict)
    (refs : String → PyVal → Prop) (o : Dict) (c : Hive.HColumn) (a b : Hive.Primitive) (i : Int)
    (hn : FieldNames (· ≠ "") (hiveRow table)) (hd : (table.columns.map (·.name)).Nodup) (ht : Hive.toRecap table = .ok t)
    (hs : Json.fromRecap live t = .ok schema) (hc : c ∈ table.columns) (he : c.type = .union [.prim a, .prim b])
    (ha : a ∈ [.byte, .short, .int, .long]) (hb : b ∈ [.float, .double]) (ho : Dict.get? o c.name = some (.int i)) :
    ¬Valid refs (.dict schema) (.dict o) := by
  intro hv
  obtain ⟨u, n, d, hp, hw, hk, hv, -⟩ := hive_property hn hd ht hs hc ho hv
  rw [he] at hp
  obtain ⟨n1, s1, a1, n2, a2, a3, rfl⟩ : ∃ n1 s1 a1 n2 a2 a3, u = .union [.null {}, .int n1 s1 a1, .float n2 a2] a3 := by
    simp only [List.mem_cons, List.not_mem_nil, or_false] at ha hb
    rcases ha with rfl | rfl | rfl | rfl <;> rcases hb with rfl | rfl <;>
      (injection hp with hp; exact ⟨_, _, _, _, _, _, hp.symm⟩)
  obtain ⟨n2, d2, h2, heq⟩ := convert_definition (defined_writable (refs := refs) (live := live) hw) hk
  rw [heq] at hv
  cases n2 with
  | zero => cases h2
  | succ m =>
    have hopt : RType.isOptional [.null {}, .int n1 s1 a1, .float n2 a2] a3.extra = false := by
      have h0 : pyEq (.null {}) (.null {}) = true := rfl
      have h1 : pyEq (.int n1 s1 a1) (.null {}) = false := pyEq_kind (by simp [kindOf])
      have h2 : pyEq (.float n2 a2) (.null {}) = false := pyEq_kind (by simp [kindOf])
      simp [RType.isOptional, h0, h1, h2]
    simp only [convertF, Bool.false_eq_true, if_false, hopt] at h2
    obtain ⟨ds, h3, h2⟩ := ok_bind h2
    cases h2
    have hv := (valid_describe (by simp [Dict.keys])).mp hv
    have hone := (valid_get hv (k := "oneOf") rfl).oneOf rfl
    simp only [Json.convertAll] at h3
    obtain ⟨d1, g1, h3⟩ := ok_bind h3
    obtain ⟨ds1, g2, h3⟩ := ok_bind h3
    cases h3
    obtain ⟨d3, g3, g2⟩ := ok_bind g2
    obtain ⟨ds2, g4, g2⟩ := ok_bind g2
    cases g2
    obtain ⟨d4, g5, g4⟩ := ok_bind g4
    obtain ⟨ds3, g6, g4⟩ := ok_bind g4
    cases g4
    cases g6
    have k1 : Valid refs (.dict d3) (.int i) :=
      number_valid ((Hive.everywhere_iff.mp hw).2 _ (by simp [children])) g3 (.inl ⟨_, _, _, rfl⟩)
    have k2 : Valid refs (.dict d4) (.int i) :=
      number_valid ((Hive.everywhere_iff.mp hw).2 _ (by simp [children])) g5 (.inr ⟨_, _, rfl⟩)
    simp only [OneOf, ExactlyOne, NoneOf] at hone
    grind

/-- `u uniontype<int,double>`: `{"u": 1}` is not valid. -/
example (refs : String → PyVal → Prop) : ∃ t schema, Hive.toRecap (unionTable .int .double) = .ok t ∧
    Json.fromRecap newRegistry t = .ok schema ∧ ¬Valid refs (.dict schema) (.dict [("u", .int 1)]) :=
  ⟨_, _, rfl, rfl, C147_hive_numbers_refuted (unionTable .int .double) _ newRegistry _ refs _ _ .int .double 1
    (by simp [unionTable, hiveRow, FieldNames, Commands.Spec.FieldNamesIn, Commands.Spec.FieldNamesAll]) (by simp [unionTable]) rfl rfl
    (List.mem_singleton.mpr rfl) rfl (by simp) (by simp) rfl⟩

/-- `n void`. -/
def voidTable : Hive.HTable := { name := "t", columns := [{ name := "n", type := .prim .void }] }

/-- The empty object is not valid. -/
example (refs : String → PyVal → Prop) : ∃ t schema,
    Hive.toRecap voidTable = .ok t ∧
    Json.fromRecap newRegistry t = .ok schema ∧ ¬Valid refs (.dict schema) (.dict []) :=
  ⟨_, _, rfl, rfl, C147_hive_required_refuted voidTable _ newRegistry _ refs [] { name := "n", type := .prim .void }
    (by simp [voidTable, hiveRow, FieldNames, Commands.Spec.FieldNamesIn]) rfl rfl (List.mem_singleton.mpr rfl) (.inl rfl) rfl⟩

/-- `tags array<uniontype<int,string>>`. -/
def tags : Hive.HTable :=
  { name := "t", columns := [{ name := "tags", type := .list (.union [.prim .int, .prim .string]) }] }

/-- `{"tags": ["a", 1]}` is valid. -/
example (refs : String → PyVal → Prop) : ∃ t schema, Hive.toRecap tags = .ok t ∧
    Json.fromRecap newRegistry t = .ok schema ∧ Valid refs (.dict schema) (.dict [("tags", .list [.str "a", .int 1])]) := by
  refine ⟨_, _, rfl, rfl, ?_⟩
  refine C147_hive_nested_partial tags _ newRegistry _ refs [.list [.str "a", .int 1]] _ ?_ rfl rfl (fun _ _ hs => by cases hs)
    ?_ ?_ ?_ ?_
  · simp [tags, hiveRow, FieldNames, Commands.Spec.FieldNamesIn, Commands.Spec.FieldNamesAll]
  · refine .struct rfl fun i g x hg hx => ?_
    match i, hg, hx with
    | 0, hg, hx =>
      cases hg; cases hx
      refine .list fun y hy => ?_
      simp only [List.mem_cons, List.not_mem_nil, or_false] at hy
      rcases hy with rfl | rfl
      · exact .union (List.mem_cons_of_mem _ (List.mem_cons_self ..)) (.prim .string trivial)
      · exact .union (List.mem_cons_self ..) (.prim (.int (by simp [Avro.Spec.IntValue])) trivial)
  · refine .struct (fun i g x hg hx => ?_) (fun i g x j hg hx hj => ?_)
    · match i, hg, hx with
      | 0, hg, hx => cases hg; cases hx; simp [Dict.get?]
    · match i, hg, hx with
      | 0, hg, hx =>
        cases hg; cases hx; cases hj
        refine .list rfl fun i y k hy hk => ?_
        match i, hy, hk with
        | 0, hy, hk => cases hy; cases hk; exact .union (List.mem_cons_self ..) (.prim .str)
        | 1, hy, hk => cases hy; cases hk; exact .union (List.mem_cons_self ..) (.prim .int)
  · intro c hc
    cases List.mem_singleton.mp hc
    refine .list (.union (fun t ht => ?_) (by simp [leavesAll, leaves, jsonKind]))
    simp only [List.mem_cons, List.not_mem_nil, or_false] at ht
    rcases ht with rfl | rfl <;> exact .prim nofun nofun
  · refine .struct (fun i g x hg hx => ?_) (fun i g x hg hx hu => ?_)
    · match i, hg, hx with
      | 0, hg, hx =>
        cases hg; cases hx
        refine .list (by simp) fun y _ => .union fun t ht _ => ?_
        simp only [List.mem_cons, List.not_mem_nil, or_false] at ht
        rcases ht with rfl | rfl <;> exact .prim
    · match i, hg, hx with
      | 0, hg, hx => cases hg; exact absurd (by simp [leaves]) hu

/-- The columns of `tags` are of such types: `{"tags": null}` is not valid. -/
example (refs : String → PyVal → Prop) : ∃ t schema, Hive.toRecap tags = .ok t ∧
    Json.fromRecap newRegistry t = .ok schema ∧ ¬Valid refs (.dict schema) (.dict [("tags", .none)]) := by
  refine ⟨_, _, rfl, rfl, C147_hive_inner_null_refuted tags _ newRegistry _ refs _ _ ?_ (by simp [tags]) rfl rfl
    (List.mem_singleton.mpr rfl) ?_ (by rintro ⟨ts, e⟩; cases e) rfl⟩
  · simp [tags, hiveRow, FieldNames, Commands.Spec.FieldNamesIn, Commands.Spec.FieldNamesAll]
  · refine .list (.union (fun t ht => ?_) (by simp [leavesAll, leaves, jsonKind]))
    simp only [List.mem_cons, List.not_mem_nil, or_false] at ht
    rcases ht with rfl | rfl <;> exact .prim nofun nofun

/-- `tags array<array<uniontype<int,string>>>`: `{"tags": [null]}` is not valid. -/
example (refs : String → PyVal → Prop) : ∃ t schema,
    Hive.toRecap { name := "t", columns := [{ name := "tags", type := .list (.list (.union [.prim .int, .prim .string])) }] } = .ok t ∧
    Json.fromRecap newRegistry t = .ok schema ∧ ¬Valid refs (.dict schema) (.dict [("tags", .list [.none])]) := by
  refine ⟨_, _, rfl, rfl, C147_hive_inner_elements_refuted
    { name := "t", columns := [{ name := "tags", type := .list (.list (.union [.prim .int, .prim .string])) }] } _ newRegistry _ refs
    _ _ _ _ ?_ (by simp) rfl rfl (List.mem_singleton.mpr rfl) rfl ?_ (by rintro ⟨ts, e⟩; cases e) rfl (List.mem_singleton.mpr rfl)⟩
  · simp [hiveRow, FieldNames, Commands.Spec.FieldNamesIn, Commands.Spec.FieldNamesAll]
  · refine .list (.union (fun t ht => ?_) (by simp [leavesAll, leaves, jsonKind]))
    simp only [List.mem_cons, List.not_mem_nil, or_false] at ht
    rcases ht with rfl | rfl <;> exact .prim nofun nofun

end Recap.NestedRows
