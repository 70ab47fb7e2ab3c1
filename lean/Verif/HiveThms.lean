import Verif.HiveMirror2

/-!
# Properties of the Hive converter
-/

set_option autoImplicit false

namespace Recap

open RType Spec Hive

/-- A table used in the examples: `events(id bigint comment 'key', tags array<string>,
v uniontype<int, uniontype<int, struct<a: array<void>>>>)`. -/
def eventsTable : HTable :=
  { name := "events"
    columns :=
      [{ name := "id", type := .prim .long, comment := some "key" },
        { name := "tags", type := .list (.prim .string) },
        { name := "v", type := .union [.prim .int,
            .union [.prim .int, .struct [("a", .list (.prim .void))]]] }] }

/-- What `eventsTable` is converted to. -/
def eventsType : RType :=
  .struct
    [.union [.null {}, .int (.int 64) (.bool true) {}]
        { doc := .str "key", extra := [("default", .none), ("name", .str "id")] },
      .union [.null {}, .list (.union [.null {}, .string .none (.bool true) {}]
          { extra := [("default", .none)] }) .none (.bool true) {}]
        { extra := [("default", .none), ("name", .str "tags")] },
      .union [.null {}, .int (.int 32) (.bool true) {},
          .struct [.union [.null {}, .list (.null {}) .none (.bool true)
            { extra := [("extra_attrs", .dict [("extra_attrs", .dict [("logical", .none),
              ("alias", .none), ("doc", .none)]), ("logical", .none), ("alias", .none),
              ("doc", .none)])] }] { extra := [("default", .none), ("name", .str "a")] }] {}]
        { extra := [("default", .none), ("name", .str "v")] }]
    { extra := [("name", .str "events")] }

example : Hive.toRecap eventsTable = .ok eventsType := by decide +kernel

theorem hive_ok {table : HTable} {t : RType} (h : Hive.toRecap table = .ok t) :
    ∃ fs, parseColumns table.columns = .ok fs ∧
      t = .struct fs { extra := [("name", .str table.name)] } := by
  unfold Hive.toRecap at h
  obtain ⟨fs, h1, h⟩ := Relational.bind_ok h
  cases h
  exact ⟨fs, h1, rfl⟩

/-! ## C57 -/

/-- **C57.**  Every column of a converted Hive table is nullable, and so are, at every depth, the
fields of structs, the elements of lists, and the keys and values of maps. -/
theorem C57_columns_nullable (table : HTable) (t : RType) (h : Hive.toRecap table = .ok t) :
    ∃ fs a, t = .struct fs a ∧ Everywhere PartsNullable t := by
  obtain ⟨fs, h1, rfl⟩ := hive_ok h
  have hc := parseColumns_converted _ _ h1
  exact ⟨fs, _, rfl, everywhere_iff.mpr ⟨fun f hf => (hc f hf).1, fun f hf => (hc f hf).2.2⟩⟩

/-- The table has parts of all kinds, so that C57 says something about them. -/
example : ∃ t, Hive.toRecap eventsTable = .ok t ∧ ∃ e l v a, Sub (.list e l v a) t := by
  refine ⟨eventsType, by decide +kernel, _, _, _, _,
    .field (List.mem_cons_of_mem _ (List.mem_cons_self ..))
      (.member (List.mem_cons_of_mem _ (List.mem_cons_self ..)) .refl)⟩

/-! ## C58 -/

/-- **C58.**  In a converted Hive table no union, at any depth, has a union among its members, and
no two members of a union are equal. -/
theorem C58_unions_flat (table : HTable) (t : RType) (h : Hive.toRecap table = .ok t) :
    Everywhere FlatNode t := by
  obtain ⟨fs, h1, rfl⟩ := hive_ok h
  have hc := parseColumns_converted _ _ h1
  exact everywhere_iff.mpr ⟨flatNode_of_not_union rfl, fun f hf => (hc f hf).2.1⟩

/-! ## C59 -/

/-- The type has no list and no map in it. -/
def NoContainers (t : RType) : Prop :=
  ∀ u, Sub u t → (∀ e l v a, u ≠ .list e l v a) ∧ ∀ k v a, u ≠ .map k v a

theorem noContainers_child {t c : RType} (h : NoContainers t) (hc : c ∈ children t) :
    NoContainers c := fun u hu => h u (sub_iff.mpr (.inr ⟨c, hc, hu⟩))

theorem foldl_absorb_same : ∀ {ts acc : List RType}, (∀ m ∈ ts, m.isUnion = false) →
    (acc ++ ts).Pairwise (fun a b => pyEq a b = false) → ts.foldl absorb acc = acc ++ ts
  | [], acc, _, _ => by simp
  | t :: ts, acc, hu, hp => by
    have h1 : absorb acc t = acc ++ [t] := by
      have hn : (acc.any fun u => pyEq u t) = false := by
        rw [List.any_eq_false]
        intro u hm
        have := (List.pairwise_append.mp hp).2.2 u hm t (List.mem_cons_self ..)
        simp [this]
      have := hu t (List.mem_cons_self ..)
      cases t <;> simp [isUnion] at this <;> simp [absorb, hn]
    rw [List.foldl_cons, h1, foldl_absorb_same (fun m hm => hu m (List.mem_cons_of_mem _ hm))
      (by simpa using hp)]
    simp

mutual
theorem flatten_same : ∀ t : RType, Everywhere FlatNode t → NoContainers t → flatten t = t
  | .union ts a, hf, hn => by
    have e := flattenAll_same ts (everywhere_iff.mp hf).2 (fun c hc => noContainers_child hn hc)
    have h1 := (everywhere_iff.mp hf).1 ts a rfl
    rw [flatten, e, foldl_absorb_same h1.1 (by simpa using h1.2)]
    simp
  | .struct fs a, hf, hn => by
    rw [flatten, flattenAll_same fs (everywhere_iff.mp hf).2 (fun c hc => noContainers_child hn hc)]
  | .list t l v a, _, hn => absurd rfl ((hn _ .refl).1 t l v a)
  | .map k v a, _, hn => absurd rfl ((hn _ .refl).2 k v a)
  | .null a, _, _ => rfl
  | .bool a, _, _ => rfl
  | .int .., _, _ => rfl
  | .float .., _, _ => rfl
  | .string .., _, _ => rfl
  | .bytes .., _, _ => rfl
  | .enum .., _, _ => rfl
  | .proxy .., _, _ => rfl
theorem flattenAll_same : ∀ ts : List RType, (∀ t ∈ ts, Everywhere FlatNode t) →
    (∀ t ∈ ts, NoContainers t) → flattenAll ts = ts
  | [], _, _ => rfl
  | t :: ts, hf, hn => by
    rw [flattenAll, flatten_same t (hf t (List.mem_cons_self ..)) (hn t (List.mem_cons_self ..)),
      flattenAll_same ts (fun u hu => hf u (List.mem_cons_of_mem _ hu))
        (fun u hu => hn u (List.mem_cons_of_mem _ hu))]
end

theorem parseAll_mem : ∀ {hs : List HType} {ts : List RType}, Hive.parseAll hs = .ok ts →
    ∀ h ∈ hs, ∃ t ∈ ts, Hive.parse {} h = .ok t
  | [], _, _ => by simp
  | h :: hs, ts, hp => by
    rw [Hive.parseAll] at hp
    obtain ⟨u, h1, hp⟩ := Relational.bind_ok hp
    obtain ⟨us, h2, hp⟩ := Relational.bind_ok hp
    cases hp
    intro h' hh'
    rcases List.mem_cons.mp hh' with rfl | hh'
    · exact ⟨u, List.mem_cons_self .., h1⟩
    · obtain ⟨t, ht, ht'⟩ := parseAll_mem h2 h' hh'
      exact ⟨t, List.mem_cons_of_mem _ ht, ht'⟩

/-- **C59, the part that holds.**  A member of a Hive union that has no list and no map in it is
found in the converted union as it is converted on its own, with all its attributes: each of its
alternatives is a member of the union, or is equal to one. -/
theorem C59_attributes_kept_partial (name : String) (comment : Option String) (hs : List HType)
    (t : RType) (hp : Hive.parse (columnAttrs name comment) (.union hs) = .ok t) :
    ∃ ms a, t = .union ms a ∧ ∀ h ∈ hs, ∃ u, Hive.parse {} h = .ok u ∧
      (NoContainers u → ∀ m ∈ alternatives u, m ∈ ms ∨ ∃ m' ∈ ms, pyEq m' m = true) := by
  rw [Hive.parse] at hp
  obtain ⟨ts, h1, hp⟩ := Relational.bind_ok hp
  cases hp
  rw [flatten]
  refine ⟨_, _, rfl, ?_⟩
  intro h hh
  obtain ⟨u, hu, hpu⟩ := parseAll_mem h1 h hh
  refine ⟨u, hpu, ?_⟩
  intro hn m hm
  have hflat := (parse_converted _ _ _ hpu).2.1
  have hsame := flatten_same u hflat hn
  have hmem : u ∈ flattenAll (.null {} :: ts) := by
    rw [flattenAll_eq]
    exact List.mem_map.mpr ⟨u, List.mem_cons_of_mem _ hu, hsame⟩
  have hcase : u.isUnion = false ∧ m = u ∨ u.isUnion = true ∧ m ∈ children u := by
    cases u with
    | union us a => exact .inr ⟨rfl, hm⟩
    | _ => exact .inl ⟨rfl, List.mem_singleton.mp hm⟩
  exact represented hmem hcase

/-- The hypotheses of C59 hold for `uniontype<date, struct<a: int>>`. -/
example : ∃ t u, Hive.parse (columnAttrs "c" .none)
      (.union [.prim .date, .struct [("a", .prim .int)]]) = .ok t ∧
    Hive.parse {} (.prim .date) = .ok u ∧ NoContainers u := by
  refine ⟨_, .union [.null {}, .int (.int 32) (.bool true)
    { logical := .str "build.recap.Date", extra := [("unit", .str "day")] }] { extra := [("default", .none)] }, rfl, by decide +kernel, ?_⟩
  intro u hu
  rcases sub_iff.mp hu with rfl | ⟨c, hc, hu⟩
  · exact ⟨by simp, by simp⟩
  · rcases List.mem_cons.mp hc with rfl | hc
    · cases hu; exact ⟨by simp, by simp⟩
    · rw [List.mem_singleton.mp hc] at hu
      cases hu
      exact ⟨by simp, by simp⟩

/-- **C59 is false for lists and maps.**  In the type of a column `uniontype<array<void>>` the list
has an attribute `extra_attrs` that the type `array<void>` does not have. -/
theorem C59_list_attributes_refuted :
    ∃ u t a, Hive.parse {} (.list (.prim .void)) = .ok (.union [.null {}, u] a) ∧
      Hive.parse (columnAttrs "c" .none) (.union [.list (.prim .void)]) = .ok t ∧
      ∀ m ∈ alternatives t, pyEq m u = false :=
  ⟨.list (.null {}) .none (.bool true) {},
    .union [.null {}, .list (.null {}) .none (.bool true)
      { extra := [("extra_attrs", .dict [("logical", .none), ("alias", .none), ("doc", .none)])] }]
      { extra := [("default", .none), ("name", .str "c")] },
    { extra := [("default", .none)] }, by decide +kernel, by decide +kernel, by decide +kernel⟩

/-! ## C81, C82 -/

/-- **C81.**  A Hive table can be converted exactly when all types in it are supported; otherwise
`ValueError` is raised. -/
theorem C81_supported_tables (table : HTable) :
    ((∃ t, Hive.toRecap table = .ok t) ↔ ∀ c ∈ table.columns, Supported c.type) := by
  rw [← parseColumns_supported]
  unfold Hive.toRecap
  exact bind_ok_iff

mutual
theorem parse_error : ∀ (x : Attrs) (h : HType) (e : PyErr), Hive.parse x h = .error e → e = .valueError
  | x, .prim c, e, h => by
    rw [Hive.parse] at h
    cases c <;> cases h
    rfl
  | x, .decimal p s, e, h => by
    rw [Hive.parse] at h
    split at h <;> cases h
    rfl
  | x, .varchar n, e, h => by rw [Hive.parse] at h; cases h
  | x, .char n, e, h => by rw [Hive.parse] at h; cases h
  | x, .map k v, e, h => by
    have i1 := parse_error {} k
    have i2 := parse_error {} v
    rw [Hive.parse] at h
    cases e1 : Hive.parse {} k with
    | error e' => rw [e1] at h; cases h; exact i1 _ e1
    | ok k' =>
      cases e2 : Hive.parse {} v with
      | error e' => rw [e1, e2] at h; cases h; exact i2 _ e2
      | ok v' => rw [e1, e2] at h; cases h
  | x, .list t, e, h => by
    have i1 := parse_error {} t
    rw [Hive.parse] at h
    cases e1 : Hive.parse {} t with
    | error e' => rw [e1] at h; cases h; exact i1 _ e1
    | ok k' => rw [e1] at h; cases h
  | x, .union ts, e, h => by
    have i1 := parseAll_error ts
    rw [Hive.parse] at h
    cases e1 : Hive.parseAll ts with
    | error e' => rw [e1] at h; cases h; exact i1 _ e1
    | ok k' => rw [e1] at h; cases h
  | x, .struct fs, e, h => by
    have i1 := parseFields_error fs
    rw [Hive.parse] at h
    cases e1 : parseFields fs with
    | error e' => rw [e1] at h; cases h; exact i1 _ e1
    | ok k' => rw [e1] at h; cases h
theorem parseAll_error : ∀ (hs : List HType) (e : PyErr), Hive.parseAll hs = .error e → e = .valueError
  | [], e, h => by rw [Hive.parseAll] at h; cases h
  | t :: hs, e, h => by
    have i1 := parse_error {} t
    have i2 := parseAll_error hs
    rw [Hive.parseAll] at h
    cases e1 : Hive.parse {} t with
    | error e' => rw [e1] at h; cases h; exact i1 _ e1
    | ok k' =>
      cases e2 : Hive.parseAll hs with
      | error e' => rw [e1, e2] at h; cases h; exact i2 _ e2
      | ok v' => rw [e1, e2] at h; cases h
theorem parseFields_error : ∀ (fs : List (String × HType)) (e : PyErr),
    parseFields fs = .error e → e = .valueError
  | [], e, h => by rw [parseFields] at h; cases h
  | (n, t) :: fs, e, h => by
    have i1 := parse_error (columnAttrs n .none) t
    have i2 := parseFields_error fs
    rw [parseFields] at h
    cases e1 : Hive.parse (columnAttrs n .none) t with
    | error e' => rw [e1] at h; cases h; exact i1 _ e1
    | ok k' =>
      cases e2 : parseFields fs with
      | error e' => rw [e1, e2] at h; cases h; exact i2 _ e2
      | ok v' => rw [e1, e2] at h; cases h
end

/-- **C81**, continued: the only exception is `ValueError`. -/
theorem C81_only_value_error (table : HTable) (e : PyErr) (h : Hive.toRecap table = .error e) :
    e = .valueError := by
  unfold Hive.toRecap at h
  have key : ∀ (cs : List HColumn) (e : PyErr), parseColumns cs = .error e → e = .valueError := by
    intro cs
    induction cs with
    | nil => intro e h; rw [parseColumns] at h; cases h
    | cons c cs ih =>
      intro e h
      rw [parseColumns] at h
      cases e1 : Hive.parse (columnAttrs c.name c.comment) c.type with
      | error e' => rw [e1] at h; cases h; exact parse_error _ _ _ e1
      | ok k' =>
        cases e2 : parseColumns cs with
        | error e' => rw [e1, e2] at h; cases h; exact ih _ e2
        | ok v' => rw [e1, e2] at h; cases h
  cases e1 : parseColumns table.columns with
  | error e' => rw [e1] at h; cases h; exact key _ _ e1
  | ok k' => rw [e1] at h; cases h

example : Hive.toRecap { name := "t", columns := [{ name := "d", type := .decimal 39 0 }] } =
    .error .valueError := by decide +kernel

/-- **C82.**  A converted Hive table has the name of the table and one field per column, in order,
with the name of the column, its comment as doc, and a type that mirrors the type of the column at
every depth: the same kinds of types, with the same sizes, precisions and units, and the fields of
structs in the same order and with the same names. -/
theorem C82_mirrors_table (table : HTable) (t : RType) (h : Hive.toRecap table = .ok t) :
    ∃ fs a, t = .struct fs a ∧ Dict.get? a.extra "name" = some (.str table.name) ∧
      MirrorsColumns table.columns fs := by
  obtain ⟨fs, h1, rfl⟩ := hive_ok h
  exact ⟨fs, _, rfl, rfl, parseColumns_mirrors _ _ h1⟩

end Recap
