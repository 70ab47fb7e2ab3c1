import Verif.PgCatalogSpec
import Verif.RelationalLemmas
import Verif.ValuesLemmas

/-!
# The rows of the query

Lemmas for C140.
-/

set_option autoImplicit false

namespace Recap.PgCatalog

open Recap.Relational Recap.PgCatalog.Spec

/-! ## Lists -/

theorem flatMap_none {α β : Type} {l : List α} {f : α → List β} (h : ∀ y ∈ l, f y = []) : l.flatMap f = [] := by
  induction l with
  | nil => rfl
  | cons x l ih =>
    rw [List.flatMap_cons, h x List.mem_cons_self, ih fun y hy => h y (List.mem_cons_of_mem _ hy)]
    rfl

/-- If only one element of a list gives something, that is all. -/
theorem flatMap_one {α β : Type} {l : List α} {R : α → α → Prop} (hp : l.Pairwise R) (hs : ∀ x y, R x y → R y x) {x : α}
    (hx : x ∈ l) {f : α → List β} (hf : ∀ y ∈ l, R y x → f y = []) : l.flatMap f = f x := by
  induction l with
  | nil => cases hx
  | cons z l ih =>
    rw [List.flatMap_cons]
    obtain ⟨h1, h2⟩ := List.pairwise_cons.mp hp
    rcases List.mem_cons.mp hx with rfl | hx
    · rw [flatMap_none fun y hy => hf y (List.mem_cons_of_mem _ hy) (hs _ _ (h1 y hy)), List.append_nil]
    · rw [hf z List.mem_cons_self (h1 x hx), ih h2 hx fun y hy => hf y (List.mem_cons_of_mem _ hy)]
      rfl

theorem leftJoin_none {α : Type} {l : List α} {p : α → Bool} (h : ∀ y ∈ l, p y = false) : leftJoin l p = [.none] := by
  unfold leftJoin
  rw [List.filter_eq_nil_iff.mpr (by simpa using h)]

theorem leftJoin_one {α : Type} {l : List α} {p : α → Bool} {R : α → α → Prop} (hp : l.Pairwise R)
    (hs : ∀ x y, R x y → R y x) {x : α} (hx : x ∈ l) (hpx : p x = true) (hf : ∀ y ∈ l, R y x → p y = false) :
    leftJoin l p = [some x] := by
  have : l.filter p = [x] := by
    induction l with
    | nil => cases hx
    | cons z l ih =>
      obtain ⟨h1, h2⟩ := List.pairwise_cons.mp hp
      rcases List.mem_cons.mp hx with rfl | hx
      · rw [List.filter_cons_of_pos hpx, List.filter_eq_nil_iff.mpr]
        intro y hy
        simp [hf y (List.mem_cons_of_mem _ hy) (hs _ _ (h1 y hy))]
      · rw [List.filter_cons_of_neg (by simp [hf z List.mem_cons_self (h1 x hx)])]
        exact ih h2 hx fun y hy => hf y (List.mem_cons_of_mem _ hy)
  unfold leftJoin
  rw [this]
  rfl

theorem perm_map {α β : Type} {f : α → β} : ∀ {rows : List β} {l : List α}, rows.Perm (l.map f) →
    ∃ l' : List α, l'.Perm l ∧ l'.map f = rows
  | [], l, h => by
    have : l = [] := by simpa using h.symm.eq_nil
    subst this
    exact ⟨[], .nil, rfl⟩
  | r :: rows, l, h => by
    obtain ⟨x, hx, hr⟩ := List.mem_map.mp (h.mem_iff.mp List.mem_cons_self)
    obtain ⟨s, t, rfl⟩ := List.append_of_mem hx
    have h1 : (r :: rows).Perm (r :: (s ++ t).map f) := by
      refine h.trans ?_
      rw [List.map_append, List.map_cons, hr, List.map_append]
      exact List.perm_middle
    obtain ⟨l', h2, h3⟩ := perm_map h1.cons_inv
    exact ⟨x :: l', (h2.cons x).trans List.perm_middle.symm, by rw [List.map_cons, hr, h3]⟩

/-! ## The rows -/

/-- What the row for a column says. -/
structure Describes (db : Database) (gs : List (Nat × List String)) (r : Row) (a : Attribute) (t : Typ) : Prop where
  mem : t ∈ db.types
  typ : t.oid = a.typ
  name : r.col.name = a.name
  position : r.col.position = a.num
  default : r.col.default = a.default
  nullable : r.col.nullable = !(a.notNull || (t.kind == "d" && t.notNull))
  dataType : r.col.dataType = dataType (underlying db t)
  udtName : r.col.udtName = (underlying db t).name
  attr : r.col.attr = a
  ndims : r.ndims = a.ndims
  other : t.kind ≠ "e" → r.enumValues = .none
  labels : t.kind = "e" → ∀ g ∈ gs, g.1 = a.typ → r.enumValues = some g.2
  noLabels : (∀ g ∈ gs, g.1 ≠ a.typ) → r.enumValues = .none

/-- The rows of the view for an attribute. -/
def viewOf (db : Database) (a : Attribute) : List Col :=
  db.classes.flatMap fun c => db.namespaces.flatMap fun n => db.types.flatMap fun t =>
    if a.rel = c.oid ∧ c.ns = n.oid ∧ a.typ = t.oid ∧ 0 < a.num ∧ a.dropped = false ∧ c.shown = true ∧ a.visible = true then
      [viewRow db a c n t]
    else []

/-- The rows of the query for a row of the view. -/
def rowsOf (db : Database) (gs : List (Nat × List String)) (catalog schema table : String) (i : Col) : List Row :=
  db.namespaces.flatMap fun n => db.classes.flatMap fun c => db.attributes.flatMap fun a =>
    if n.name = i.schema ∧ c.name = i.table ∧ c.ns = n.oid ∧ a.rel = c.oid ∧ a.name = i.name ∧
        i.table = table ∧ i.schema = schema ∧ i.catalog = catalog then
      (leftJoin db.types (fun t => t.oid == a.typ && t.kind == "e")).flatMap fun t =>
        (leftJoin gs (fun g => some g.1 == t.map (·.oid))).map fun g =>
          { col := i, ndims := a.ndims, enumValues := g.map (·.2) }
    else []

theorem joined_eq (db : Database) (gs : List (Nat × List String)) (catalog schema table : String) :
    joined db gs catalog schema table =
      db.attributes.flatMap fun a => (viewOf db a).flatMap (rowsOf db gs catalog schema table) := by
  unfold joined columnsView
  rw [List.flatMap_assoc]
  rfl

theorem view_one {db : Database} (hw : WellFormed db) {a : Attribute} {c : Class} {n : Namespace} {t : Typ} (hc : c ∈ db.classes)
    (hn : n ∈ db.namespaces) (ht : t ∈ db.types) (h1 : a.rel = c.oid) (h2 : c.ns = n.oid) (h3 : a.typ = t.oid)
    (h4 : 0 < a.num) (h5 : a.dropped = false) (h6 : c.shown = true) (h7 : a.visible = true) :
    viewOf db a = [viewRow db a c n t] := by
  unfold viewOf
  rw [flatMap_one hw.classes (fun x y h => ⟨Ne.symm h.1, fun g => h.2 ⟨g.1.symm, g.2.symm⟩⟩) hc
    (fun y _ hy => flatMap_none fun m _ => flatMap_none fun u _ => if_neg fun g => hy.1 (g.1.symm.trans h1))]
  rw [flatMap_one hw.namespaces (fun x y h => ⟨Ne.symm h.1, Ne.symm h.2⟩) hn
    (fun y _ hy => flatMap_none fun u _ => if_neg fun g => hy.1 (g.2.1.symm.trans h2))]
  rw [flatMap_one hw.types (fun x y h => Ne.symm h) ht (fun y _ hy => if_neg fun g => hy (g.2.2.1.symm.trans h3))]
  exact if_pos ⟨h1, h2, h3, h4, h5, h6, h7⟩

theorem view_mem {db : Database} {a : Attribute} {i : Col} (h : i ∈ viewOf db a) :
    ∃ c ∈ db.classes, ∃ n ∈ db.namespaces, ∃ t ∈ db.types, a.rel = c.oid ∧ c.ns = n.oid ∧ a.typ = t.oid ∧ 0 < a.num ∧
      a.dropped = false ∧ c.shown = true ∧ a.visible = true ∧ i = viewRow db a c n t := by
  unfold viewOf at h
  obtain ⟨c, hc, h⟩ := List.mem_flatMap.mp h
  obtain ⟨n, hn, h⟩ := List.mem_flatMap.mp h
  obtain ⟨t, ht, h⟩ := List.mem_flatMap.mp h
  split at h
  · rename_i g
    exact ⟨c, hc, n, hn, t, ht, g.1, g.2.1, g.2.2.1, g.2.2.2.1, g.2.2.2.2.1, g.2.2.2.2.2.1, g.2.2.2.2.2.2,
      List.mem_singleton.mp h⟩
  · cases h

theorem rows_one {db : Database} (hw : WellFormed db) {gs : List (Nat × List String)} (hg : Groups db.labels gs)
    {a : Attribute} {c : Class} {n : Namespace} {t : Typ} (ha : a ∈ db.attributes) (hc : c ∈ db.classes)
    (hn : n ∈ db.namespaces) (ht : t ∈ db.types) (h1 : a.rel = c.oid) (h2 : c.ns = n.oid) (h3 : a.typ = t.oid) :
    ∃ r, rowsOf db gs db.name n.name c.name (viewRow db a c n t) = [r] ∧ Describes db gs r a t := by
  have h : rowsOf db gs db.name n.name c.name (viewRow db a c n t) =
      (leftJoin db.types (fun t => t.oid == a.typ && t.kind == "e")).flatMap fun u =>
        (leftJoin gs (fun g => some g.1 == u.map (·.oid))).map fun g =>
          { col := viewRow db a c n t, ndims := a.ndims, enumValues := g.map (·.2) } := by
    unfold rowsOf
    rw [flatMap_one hw.namespaces (fun x y h => ⟨Ne.symm h.1, Ne.symm h.2⟩) hn
      (fun y _ hy => flatMap_none fun u _ => flatMap_none fun v _ => if_neg fun g => hy.2 g.1)]
    rw [flatMap_one hw.classes (fun x y h => ⟨Ne.symm h.1, fun g => h.2 ⟨g.1.symm, g.2.symm⟩⟩) hc
      (fun y _ hy => flatMap_none fun v _ => if_neg fun g => hy.2 ⟨g.2.2.1.trans h2.symm, g.2.1⟩)]
    rw [flatMap_one hw.attributes
      (fun x y h => ⟨fun g => h.1 ⟨g.1.symm, g.2.symm⟩, fun g => h.2 ⟨g.1.symm, g.2.symm⟩⟩) ha
      (fun y _ hy => if_neg fun g => hy.1 ⟨g.2.2.2.1.trans h1.symm, g.2.2.2.2.1⟩)]
    exact if_pos ⟨rfl, rfl, h2, h1, rfl, rfl, rfl, rfl⟩
  rw [h]
  have key : ∀ e : Option (List String), (t.kind ≠ "e" → e = .none) → (t.kind = "e" → ∀ g ∈ gs, g.1 = a.typ → e = some g.2) →
      ((∀ g ∈ gs, g.1 ≠ a.typ) → e = .none) →
      Describes db gs { col := viewRow db a c n t, ndims := a.ndims, enumValues := e } a t :=
    fun e g1 g2 g3 => ⟨ht, h3.symm, rfl, rfl, rfl, rfl, rfl, rfl, rfl, rfl, g1, g2, g3⟩
  by_cases hk : t.kind = "e"
  · rw [leftJoin_one hw.types (fun x y h => Ne.symm h) ht (by simp [h3, hk])
      (fun y _ hy => by simp only [Bool.and_eq_false_iff, beq_eq_false_iff_ne]; exact .inl (h3 ▸ hy))]
    simp only [List.flatMap_cons, List.flatMap_nil, List.append_nil]
    by_cases hgs : ∃ g ∈ gs, g.1 = t.oid
    · obtain ⟨g, hg1, hg2⟩ := hgs
      rw [leftJoin_one (x := g) hg.once (fun x y h => Ne.symm h) hg1 (by simp [hg2])
        (fun y _ hy => by simp only [Option.map_some, beq_eq_false_iff_ne, ne_eq, Option.some.injEq]; rw [← hg2]; exact hy)]
      refine ⟨_, rfl, key _ (fun h => absurd hk h) (fun _ g' hg' he => ?_) fun h => ?_⟩
      · have : g' = g := by
          have := hg.once
          clear h key
          have aux : ∀ l : List (Nat × List String), l.Pairwise (fun g h => g.1 ≠ h.1) → g' ∈ l → g ∈ l → g' = g := by
            intro l hl h1 h2
            induction l with
            | nil => cases h1
            | cons x l ih =>
              obtain ⟨h3, h4⟩ := List.pairwise_cons.mp hl
              rcases List.mem_cons.mp h1 with rfl | m1 <;> rcases List.mem_cons.mp h2 with rfl | m2
              · rfl
              · exact absurd (by omega) (h3 _ m2)
              · exact absurd (by omega) (h3 _ m1)
              · exact ih h4 m1 m2
          exact aux gs this hg' hg1
        rw [this]
        rfl
      · exact absurd (hg2.trans h3.symm) (h g hg1)
    · rw [leftJoin_none (fun y hy => by
        simp only [Option.map_some, beq_eq_false_iff_ne, ne_eq, Option.some.injEq]
        exact fun h => hgs ⟨y, hy, h⟩)]
      refine ⟨_, rfl, key _ (fun _ => rfl) (fun _ g hg he => absurd ⟨g, hg, by omega⟩ hgs) fun _ => rfl⟩
  · rw [leftJoin_none (fun y hy => by
      simp only [Bool.and_eq_false_iff, beq_eq_false_iff_ne]
      by_cases hy' : y.oid = t.oid
      · right
        have aux : ∀ l : List Typ, l.Pairwise (fun t u => t.oid ≠ u.oid) → y ∈ l → t ∈ l → y = t := by
          intro l hl h1 h2
          induction l with
          | nil => cases h1
          | cons x l ih =>
            obtain ⟨h3, h4⟩ := List.pairwise_cons.mp hl
            rcases List.mem_cons.mp h1 with rfl | m1 <;> rcases List.mem_cons.mp h2 with rfl | m2
            · rfl
            · exact absurd hy' (h3 _ m2)
            · exact absurd hy'.symm (h3 _ m1)
            · exact ih h4 m1 m2
        rw [aux _ hw.types hy ht]
        exact hk
      · left
        rw [h3]
        exact hy')]
    simp only [List.flatMap_cons, List.flatMap_nil, List.append_nil]
    rw [leftJoin_none (fun y hy => by simp)]
    exact ⟨_, rfl, key _ (fun _ => rfl) (fun h => absurd h hk) fun _ => rfl⟩

/-- The rows of the query for an attribute: one if it is a column of the table, and otherwise none. -/
theorem attribute_rows {db : Database} (hw : WellFormed db) {gs : List (Nat × List String)} (hg : Groups db.labels gs)
    {a : Attribute} (ha : a ∈ db.attributes) (schema table : String) :
    (ColumnOf db schema table a ∧ ∃ r t, (viewOf db a).flatMap (rowsOf db gs db.name schema table) = [r] ∧ Describes db gs r a t) ∨
      (¬ColumnOf db schema table a ∧ (viewOf db a).flatMap (rowsOf db gs db.name schema table) = []) := by
  by_cases hcol : ColumnOf db schema table a
  · obtain ⟨-, h4, h5, h7, c, hc, n, hn, h1, h6, h2, rfl, rfl⟩ := hcol
    obtain ⟨t, ht, h3⟩ := hw.typed a ha h5
    obtain ⟨r, h8, h9⟩ := rows_one hw hg ha hc hn ht h1 h2 h3.symm
    refine .inl ⟨⟨ha, h4, h5, h7, c, hc, n, hn, h1, h6, h2, rfl, rfl⟩, r, t, ?_, h9⟩
    rw [view_one hw hc hn ht h1 h2 h3.symm h4 h5 h6 h7, List.flatMap_cons, h8]
    rfl
  · refine .inr ⟨hcol, flatMap_none fun i hi => ?_⟩
    obtain ⟨c, hc, n, hn, t, ht, h1, h2, h3, h4, h5, h6, h7, rfl⟩ := view_mem hi
    unfold rowsOf
    refine flatMap_none fun n' _ => flatMap_none fun c' _ => flatMap_none fun a' _ => if_neg fun g => ?_
    exact hcol ⟨ha, h4, h5, h7, c, hc, n, hn, h1, h6, h2, g.2.2.2.2.2.2.1, g.2.2.2.2.2.1⟩

/-- All rows, each with the column it describes. -/
theorem joined_rows {db : Database} (hw : WellFormed db) {gs : List (Nat × List String)} (hg : Groups db.labels gs)
    (schema table : String) :
    ∃ L : List (Row × Attribute), L.map (·.1) = joined db gs db.name schema table ∧ (L.map (·.2)).Sublist db.attributes ∧
      (∀ a, a ∈ L.map (·.2) ↔ ColumnOf db schema table a) ∧ ∀ p ∈ L, ∃ t, Describes db gs p.1 p.2 t := by
  rw [joined_eq]
  have key : ∀ as : List Attribute, (∀ a ∈ as, a ∈ db.attributes) → ∃ L : List (Row × Attribute),
      L.map (·.1) = as.flatMap (fun a => (viewOf db a).flatMap (rowsOf db gs db.name schema table)) ∧ (L.map (·.2)).Sublist as ∧
      (∀ a, a ∈ L.map (·.2) ↔ a ∈ as ∧ ColumnOf db schema table a) ∧ ∀ p ∈ L, ∃ t, Describes db gs p.1 p.2 t := by
    intro as
    induction as with
    | nil => intro _; exact ⟨[], rfl, .slnil, by simp, by simp⟩
    | cons a as ih =>
      intro has
      obtain ⟨L, h1, h2, h3, h4⟩ := ih fun x hx => has x (List.mem_cons_of_mem _ hx)
      rcases attribute_rows hw hg (has a List.mem_cons_self) schema table with ⟨h5, r, t, h6, h7⟩ | ⟨h5, h6⟩
      · refine ⟨(r, a) :: L, ?_, ?_, ?_, ?_⟩
        · rw [List.flatMap_cons, h6, List.map_cons, h1]; rfl
        · exact h2.cons_cons a
        · intro x
          rw [List.map_cons, List.mem_cons, h3, List.mem_cons]
          constructor
          · rintro (rfl | h)
            · exact ⟨.inl rfl, h5⟩
            · exact ⟨.inr h.1, h.2⟩
          · rintro ⟨rfl | h, h'⟩
            · exact .inl rfl
            · exact .inr ⟨h, h'⟩
        · intro p hp
          rcases List.mem_cons.mp hp with rfl | hp
          · exact ⟨t, h7⟩
          · exact h4 p hp
      · refine ⟨L, ?_, h2.cons a, ?_, h4⟩
        · rw [List.flatMap_cons, h6, h1]; rfl
        · intro x
          rw [h3, List.mem_cons]
          constructor
          · rintro ⟨h, h'⟩; exact ⟨.inr h, h'⟩
          · rintro ⟨rfl | h, h'⟩
            · exact absurd h' h5
            · exact ⟨h, h'⟩
  obtain ⟨L, h1, h2, h3, h4⟩ := key db.attributes fun _ h => h
  exact ⟨L, h1, h2, fun a => (h3 a).trans ⟨fun h => h.2, fun h => ⟨h.1, h⟩⟩, h4⟩

theorem pairwise_mono {α : Type} {R S : α → α → Prop} {l : List α} (h : l.Pairwise R)
    (hrs : ∀ x ∈ l, ∀ y ∈ l, R x y → S x y) : l.Pairwise S := by
  induction l with
  | nil => exact .nil
  | cons x l ih =>
    obtain ⟨h1, h2⟩ := List.pairwise_cons.mp h
    exact .cons (fun y hy => hrs x List.mem_cons_self y (List.mem_cons_of_mem _ hy) (h1 y hy))
      (ih h2 fun a ha b hb => hrs a (List.mem_cons_of_mem _ ha) b (List.mem_cons_of_mem _ hb))

theorem class_eq {db : Database} (hw : WellFormed db) {c d : Class} (hc : c ∈ db.classes) (hd : d ∈ db.classes)
    (h : c.ns = d.ns ∧ c.name = d.name) : c = d := by
  have aux : ∀ l : List Class, l.Pairwise (fun c d => c.oid ≠ d.oid ∧ ¬(c.ns = d.ns ∧ c.name = d.name)) → c ∈ l → d ∈ l → c = d := by
    intro l hl h1 h2
    induction l with
    | nil => cases h1
    | cons x l ih =>
      obtain ⟨h3, h4⟩ := List.pairwise_cons.mp hl
      rcases List.mem_cons.mp h1 with rfl | m1 <;> rcases List.mem_cons.mp h2 with rfl | m2
      · rfl
      · exact absurd h (h3 _ m2).2
      · exact absurd ⟨h.1.symm, h.2.symm⟩ (h3 _ m1).2
      · exact ih h4 m1 m2
  exact aux _ hw.classes hc hd

theorem namespace_eq {db : Database} (hw : WellFormed db) {c d : Namespace} (hc : c ∈ db.namespaces) (hd : d ∈ db.namespaces)
    (h : c.name = d.name) : c = d := by
  have aux : ∀ l : List Namespace, l.Pairwise (fun c d => c.oid ≠ d.oid ∧ c.name ≠ d.name) → c ∈ l → d ∈ l → c = d := by
    intro l hl h1 h2
    induction l with
    | nil => cases h1
    | cons x l ih =>
      obtain ⟨h3, h4⟩ := List.pairwise_cons.mp hl
      rcases List.mem_cons.mp h1 with rfl | m1 <;> rcases List.mem_cons.mp h2 with rfl | m2
      · rfl
      · exact absurd h (h3 _ m2).2
      · exact absurd h.symm (h3 _ m1).2
      · exact ih h4 m1 m2
  exact aux _ hw.namespaces hc hd

/-- All columns of a table have the same `attrelid`. -/
theorem column_rel {db : Database} (hw : WellFormed db) {schema table : String} {a b : Attribute}
    (ha : ColumnOf db schema table a) (hb : ColumnOf db schema table b) : a.rel = b.rel := by
  obtain ⟨-, -, -, -, c, hc, n, hn, h1, -, h2, h3, h4⟩ := ha
  obtain ⟨-, -, -, -, d, hd, m, hm, g1, -, g2, g3, g4⟩ := hb
  have hnm := namespace_eq hw hn hm (h3.trans g3.symm)
  subst hnm
  rw [h1, g1, class_eq hw hc hd ⟨h2.trans g2.symm, h4.trans g4.symm⟩]

/-- The rows that are returned describe the columns of the table, in their order. -/
theorem answer_rows {db : Database} (hw : WellFormed db) {schema table : String} {rows : List Row}
    (h : Answer db db.name schema table rows) :
    ∃ gs, Groups db.labels gs ∧ ∃ as, Columns db schema table as ∧ rows.length = as.length ∧
      ∀ (i : Nat) r a, rows[i]? = some r → as[i]? = some a → ∃ t, Describes db gs r a t := by
  obtain ⟨gs, hg, hp, ho⟩ := h
  obtain ⟨L, h1, h2, h3, h4⟩ := joined_rows hw hg schema table
  rw [← h1] at hp
  obtain ⟨L', h5, rfl⟩ := perm_map hp
  refine ⟨gs, hg, L'.map (·.2), ⟨?_, fun a => ?_⟩, by simp, ?_⟩
  · rw [List.pairwise_map] at ho
    have hd : (L.map (·.2)).Pairwise (fun a b => ¬(a.rel = b.rel ∧ a.num = b.num)) :=
      (hw.attributes.sublist h2).imp fun h => h.2
    have hd' : (L'.map (·.2)).Pairwise (fun a b => ¬(a.rel = b.rel ∧ a.num = b.num)) :=
      ((h5.map (·.2)).pairwise_iff fun {x y} h g => h ⟨g.1.symm, g.2.symm⟩).mpr hd
    rw [List.pairwise_map] at hd' ⊢
    refine pairwise_mono (ho.and hd') fun x hx y hy ⟨g1, g2⟩ => ?_
    obtain ⟨t, ht⟩ := h4 x (h5.mem_iff.mp hx)
    obtain ⟨u, hu⟩ := h4 y (h5.mem_iff.mp hy)
    rw [ht.position, hu.position] at g1
    have hrel := column_rel hw ((h3 x.2).mp (List.mem_map.mpr ⟨x, h5.mem_iff.mp hx, rfl⟩))
      ((h3 y.2).mp (List.mem_map.mpr ⟨y, h5.mem_iff.mp hy, rfl⟩))
    have : x.2.num ≠ y.2.num := fun h => g2 ⟨hrel, h⟩
    omega
  · rw [(h5.map (·.2)).mem_iff]
    exact h3 a
  · intro i r a hr ha
    rw [List.getElem?_map] at hr ha
    cases hL : L'[i]? with
    | none => rw [hL] at hr; cases hr
    | some p =>
      rw [hL] at hr ha
      cases hr
      cases ha
      exact h4 p (h5.mem_iff.mp (List.mem_of_getElem? hL))

theorem type_eq {db : Database} (hw : WellFormed db) {c d : Typ} (hc : c ∈ db.types) (hd : d ∈ db.types)
    (h : c.oid = d.oid) : c = d := by
  have aux : ∀ l : List Typ, l.Pairwise (fun c d => c.oid ≠ d.oid) → c ∈ l → d ∈ l → c = d := by
    intro l hl h1 h2
    induction l with
    | nil => cases h1
    | cons x l ih =>
      obtain ⟨h3, h4⟩ := List.pairwise_cons.mp hl
      rcases List.mem_cons.mp h1 with rfl | m1 <;> rcases List.mem_cons.mp h2 with rfl | m2
      · rfl
      · exact absurd h (h3 _ m2)
      · exact absurd h.symm (h3 _ m1)
      · exact ih h4 m1 m2
  exact aux _ hw.types hc hd

theorem sorted_eq {as bs : List Attribute} (ha : as.Pairwise (fun a b => a.num < b.num))
    (hb : bs.Pairwise (fun a b => a.num < b.num)) (h : ∀ a, a ∈ as ↔ a ∈ bs) : as = bs := by
  induction as generalizing bs with
  | nil =>
    cases bs with
    | nil => rfl
    | cons b bs => exact absurd ((h b).mpr List.mem_cons_self) (by simp)
  | cons a as ih =>
    cases bs with
    | nil => exact absurd ((h a).mp List.mem_cons_self) (by simp)
    | cons b bs =>
      obtain ⟨a1, a2⟩ := List.pairwise_cons.mp ha
      obtain ⟨b1, b2⟩ := List.pairwise_cons.mp hb
      have hab : a = b := by
        rcases List.mem_cons.mp ((h a).mp List.mem_cons_self) with e | e
        · exact e
        · rcases List.mem_cons.mp ((h b).mpr List.mem_cons_self) with e' | e'
          · exact e'.symm
          · have := a1 _ e'; have := b1 _ e; omega
      subst hab
      rw [ih a2 b2 fun x => ?_]
      constructor
      · intro hx
        rcases List.mem_cons.mp ((h x).mp (List.mem_cons_of_mem _ hx)) with e | e
        · subst e; have := a1 _ hx; omega
        · exact e
      · intro hx
        rcases List.mem_cons.mp ((h x).mpr (List.mem_cons_of_mem _ hx)) with e | e
        · subst e; have := b1 _ hx; omega
        · exact e

theorem columns_eq {db : Database} {schema table : String} {as bs : List Attribute} (ha : Columns db schema table as)
    (hb : Columns db schema table bs) : as = bs :=
  sorted_eq ha.order hb.order fun a => (ha.all a).trans (hb.all a).symm

/-! ## Enums -/

theorem pgScalar_enum {r : Row} {o m : PyVal} {t : RType} (h : pgScalar "user-defined" o m r.dict = .ok t) :
    ∃ ls, r.enumValues = some ls ∧ t = .enum (.list (ls.map .str)) {} := by
  have hu : pgScalar "user-defined" o m r.dict =
      (do let symbols ← item r.dict "ENUM_VALUES"
          if symbols.truthy then pure (.enum symbols {}) else .error .valueError) := by
    unfold pgScalar
    rfl
  rw [hu] at h
  have hi : item r.dict "ENUM_VALUES" = .ok (match r.enumValues with | .none => .none | some ls => .list (ls.map .str)) := rfl
  rw [hi] at h
  cases he : r.enumValues with
  | none => rw [he] at h; cases h
  | some ls =>
    rw [he] at h
    refine ⟨ls, rfl, ?_⟩
    simp only [bind, Except.bind, pure, Except.pure] at h
    split at h
    · cases h; rfl
    · cases h

theorem enum_field {cm : CaseMap} {c : Dict} {ls : List String} {f : RType} {s : String}
    (h : fieldOf cm c (.enum (.list (ls.map .str)) {}) = .ok f) : Values.Holds f (.str s) ↔ s ∈ ls := by
  have hm : PyVal.str s ∈ ls.map PyVal.str ↔ s ∈ ls := by
    simp
  have key : ∀ a, Values.Holds (.enum (.list (ls.map .str)) a) (.str s) ↔ s ∈ ls := fun a =>
    ⟨fun h => by cases h with | enum h => exact hm.mp h, fun h => .enum (hm.mpr h)⟩
  rcases fieldOf_shape ⟨rfl, rfl, rfl⟩ rfl (fun ts a => by simp) h with ⟨n, rfl⟩ | ⟨v, n, rfl⟩ | ⟨v, n, rfl⟩
  · exact key _
  · exact key _
  · constructor
    · intro h
      cases h with
      | union h1 h2 =>
        rcases List.mem_cons.mp h1 with rfl | h1
        · cases h2
        · rcases List.mem_cons.mp h1 with rfl | h1
          · exact (key _).mp h2
          · cases h1
    · intro h
      exact .union (List.mem_cons_of_mem _ List.mem_cons_self) ((key _).mpr h)

end Recap.PgCatalog
