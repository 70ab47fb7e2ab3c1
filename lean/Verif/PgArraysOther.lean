import Verif.PgArraysThms

/-!
# C142: arrays of other types

Which arrays are not read: among them, those of all enums, domains and composite types, unless their names start like those of
types that PostgreSQL has.
-/

set_option autoImplicit false

namespace Recap.PgArrays

open Recap.Relational Recap.Values Recap.Spec
open Recap.AvroData (HoldsIn)

/-- The names of types whose arrays are read. -/
def knownNames : List String :=
  ["bigint", "int8", "bigserial", "serial8", "integer", "int", "int4", "serial", "serial4", "smallint", "smallserial", "serial2",
    "double precision", "float8", "real", "float4", "boolean", "text", "json", "jsonb", "uuid", "bytea"]

/-- What the names of further types whose arrays are read start with. -/
def knownStarts : List String := ["varchar", "char", "bit"]

/-- The name of a type in lower case, which does not start with an underscore. -/
structure LowerName (cm : CaseMap) (e : String) : Prop where
  lower : cm.lower e = e
  lowerArray : cm.lower ("_" ++ e) = "_" ++ e
  start : e.toList.head? ≠ some '_'

theorem lstrip_lower {cm : CaseMap} {e : String} (h : LowerName cm e) : lstripUnderscore ("_" ++ e) = e := by
  have := h.start
  unfold lstripUnderscore
  rw [show ("_" ++ e).toList = '_' :: e.toList by simp]
  rw [List.dropWhile_cons_of_pos (by decide)]
  cases hl : e.toList with
  | nil => rw [List.dropWhile_nil, ← hl, String.ofList_toList]
  | cons a as =>
    rw [hl] at this
    rw [List.dropWhile_cons_of_neg (by simpa using this), ← hl, String.ofList_toList]

theorem starts_false {s p : String} (h : ¬Starts p s) : startsWith s p = false := by
  cases e : startsWith s p with
  | false => rfl
  | true =>
    obtain ⟨r, hr⟩ := List.isPrefixOf_iff_prefix.mp e
    exact absurd ⟨r, hr.symm⟩ h

theorem unknown_scalar {e : String} {octet maxLength : PyVal} {v : RType} (h1 : e ∉ knownNames)
    (h2 : ∀ p ∈ knownStarts, ¬Starts p e) : pgScalar e octet maxLength (pgElement e) ≠ .ok v := by
  intro h
  simp only [knownNames, List.mem_cons, List.not_mem_nil, or_false, not_or] at h1
  have s1 := starts_false (h2 "varchar" (by simp [knownStarts]))
  have s2 := starts_false (h2 "char" (by simp [knownStarts]))
  have s3 := starts_false (h2 "bit" (by simp [knownStarts]))
  have s4 : startsWith e "character varying" = false := starts_false fun ⟨r, hr⟩ =>
    h2 "char" (by simp [knownStarts]) ⟨"acter varying".toList ++ r, by
      rw [hr, ← List.append_assoc, show "char".toList ++ "acter varying".toList = "character varying".toList by decide]⟩
  have s5 : startsWith e "bit varying" = false := starts_false fun ⟨r, hr⟩ =>
    h2 "bit" (by simp [knownStarts]) ⟨" varying".toList ++ r, by
      rw [hr, ← List.append_assoc, show "bit".toList ++ " varying".toList = "bit varying".toList by decide]⟩
  simp only [pgScalar, List.contains_cons, List.contains_nil, h1, s1, s2, s3, s4, s5, beq_iff_eq,
    Bool.false_eq_true, if_false, beq_eq_false_iff_ne.mpr, ne_eq, not_false_eq_true, Bool.or_self] at h
  split at h
  · cases h
  · split at h
    · cases h
    · split at h
      · cases h
      · cases h

/-- What a column with an array gives, for any name of the type of the elements. -/
theorem array_parse_lower {cm : CaseMap} {cfg : PgConfig} {c : Dict} {e : String} {reg reg' : Registry} {b : RType}
    (hl : LowerName cm e) (ha : ArrayOf cm c e) (h : pgParse cm cfg c reg = (.ok b, reg')) :
    ∃ v, pgScalar e (.int pgMax) (.int (pgMax * 8)) (pgElement e) = .ok v ∧
      ((cfg.enforce = true ∧ reg' = reg ∧ ∃ n, Dict.get? c "ATTNDIMS" = some n ∧ createNDim v n = .ok b) ∨
        (cfg.enforce = false ∧ ∃ s, b = selfList s v ∧ reg.registerAlias b = .ok reg')) := by
  obtain ⟨p, hp, hcase⟩ := pgParse_ok h
  obtain ⟨-, hd, -, -, ⟨u, r, hu, hr, hpu⟩, hn⟩ := pgProps_ok hp
  obtain ⟨ha, hudt⟩ := ha
  rw [hu] at hudt
  cases hudt
  have hr' : r = "_" ++ e := by
    unfold orElse at hr
    split at hr
    · injection hr with hr
      exact hr.symm
    · rename_i hne
      simp [PyVal.truthy] at hne
  have hs : lstripUnderscore p.udt = e := by rw [hpu, hr', hl.lowerArray, lstrip_lower hl]
  rcases hcase with ⟨hne, -⟩ | ⟨-, v, -, hv, hcase⟩
  · exact absurd (dataType_unique hd ha) hne
  · rw [hs, hl.lower] at hv
    refine ⟨v, hv, ?_⟩
    rcases hcase with ⟨h1, h2, h3⟩ | ⟨h1, s, h2, h3, h4⟩
    · exact .inl ⟨h1, h2, _, hn, h3⟩
    · exact .inr ⟨h1, _, h3, h4⟩

/-- **C142 does not hold: other types.**  A table with an array of a type whose name is not one of those above and does not
start like them is not read at all. -/
theorem C142_others_refuted {cm : CaseMap} {cfg : PgConfig} {cols : List Dict} {reg : Registry} {c : Dict} {e : String}
    {t : RType} (hc : c ∈ cols) (ha : ArrayOf cm c e) (hl : LowerName cm e) (h1 : e ∉ knownNames)
    (h2 : ∀ p ∈ knownStarts, ¬Starts p e) : ((Dialect.postgresql cfg).toRecap cm cols reg).1 ≠ .ok t := by
  intro h
  have h' : (Dialect.postgresql cfg).toRecap cm cols reg = (.ok t, ((Dialect.postgresql cfg).toRecap cm cols reg).2) := by
    rw [← h]
  obtain ⟨fs, rfl, hfs⟩ := toRecap_ok h'
  obtain ⟨i, hi, hic⟩ := List.getElem_of_mem hc
  have hlen := (fieldsOf_index hfs).1
  obtain ⟨f, hf⟩ : ∃ f, fs[i]? = some f := ⟨_, List.getElem?_eq_getElem (by omega)⟩
  obtain ⟨b, s, s', hb, -, -⟩ := column_parse hfs i c f (by rw [List.getElem?_eq_getElem hi, hic]) hf
  obtain ⟨v, hv, -⟩ := array_parse_lower hl ha hb
  exact unknown_scalar h1 h2 hv

theorem starts_true {s p : String} (h : Starts p s) : startsWith s p = true := by
  obtain ⟨r, hr⟩ := h
  exact List.isPrefixOf_iff_prefix.mpr ⟨r, hr.symm⟩

theorem confused_scalar {e : String} {o l : Int} {v : RType} (hs : ∃ p ∈ knownStarts, Starts p e)
    (h : pgScalar e (.int o) (.int l) (pgElement e) = .ok v) : (∃ l w, v = .string l w {}) ∨ ∃ l w, v = .bytes l w {} := by
  have h1 : e ∉ knownNames := by
    intro he
    obtain ⟨p, hp, r, hr⟩ := hs
    have key : ∀ x ∈ knownNames, ∀ p ∈ knownStarts, p.toList.isPrefixOf x.toList = false := by decide
    have := key _ he _ hp
    rw [hr, List.isPrefixOf_iff_prefix.mpr ⟨r, rfl⟩] at this
    cases this
  simp only [knownNames, List.mem_cons, List.not_mem_nil, or_false, not_or] at h1
  have hor : startsWith e "varchar" = true ∨ startsWith e "char" = true ∨ startsWith e "bit" = true := by
    obtain ⟨p, hp, hs⟩ := hs
    simp only [knownStarts, List.mem_cons, List.not_mem_nil, or_false] at hp
    rcases hp with rfl | rfl | rfl
    · exact .inl (starts_true hs)
    · exact .inr (.inl (starts_true hs))
    · exact .inr (.inr (starts_true hs))
  simp only [pgScalar, List.contains_cons, List.contains_nil, h1, beq_iff_eq,
    Bool.false_eq_true, if_false, beq_eq_false_iff_ne.mpr, ne_eq, not_false_eq_true, Bool.or_self, Bool.false_or] at h
  split at h
  · cases h; exact .inl ⟨_, _, rfl⟩
  rename_i n1
  split at h
  · cases h; exact .inl ⟨_, _, rfl⟩
  rename_i n2
  split at h
  · cases h; exact .inr ⟨_, _, rfl⟩
  have s3 : startsWith e "bit" = true := by
    rcases hor with h | h | h
    · simp [h] at n1
    · exact absurd h n2
    · exact h
  rw [if_pos s3] at h
  cases hc : ceilDiv8 (.int l) with
  | error _ => rw [hc] at h; cases h
  | ok _ =>
  rw [hc] at h
  cases h
  exact .inr ⟨_, _, rfl⟩

/-- **C142 does not hold: names.**  If the name of the type of the elements starts with `char`, `varchar` or `bit`,
whatever the type is, the elements are taken for strings or bytes: no array with an integer is a value. -/
theorem C142_confused_refuted {cm : CaseMap} {cfg : PgConfig} {cols : List Dict} {reg reg' reg'' : Registry}
    {fs : List RType} {a : Attrs} {i : Nat} {c : Dict} {f : RType} {e : String} {xs : List Val} {k : Int}
    (h : (Dialect.postgresql cfg).toRecap cm cols reg = (.ok (.struct fs a), reg')) (hc : cols[i]? = some c)
    (hf : fs[i]? = some f) (hg : Grows reg' reg'') (ha : ArrayOf cm c e) (hl : LowerName cm e) (hs : ∃ p ∈ knownStarts, Starts p e)
    (hd : cfg.enforce = true → ∃ n : Nat, Dict.get? c "ATTNDIMS" = some (.int (n + 1))) (hk : .int k ∈ xs) : ¬HoldsIn reg'' f (.list xs) := by
  obtain ⟨fs', heq, hfs⟩ := toRecap_ok h
  cases heq
  obtain ⟨b, s, s', hb, hg', hfield⟩ := column_parse hfs i c f hc hf
  obtain ⟨v, hv, hcase⟩ := array_parse_lower hl ha hb
  have hsim := pgScalar_simple _ _ _ _ _ hv
  have hnp := pgScalar_notProxy _ _ _ _ _ hv
  have hno : ¬Holds v (.int k) := by
    rcases confused_scalar hs hv with ⟨l, w, rfl⟩ | ⟨l, w, rfl⟩ <;> exact fun h => by cases h
  intro hx
  change pgParse cm cfg c s = (.ok b, s') at hb
  rcases hcase with ⟨he, -, n, hn', hn⟩ | ⟨-, al, hbe, hr⟩
  · obtain ⟨k', hk'⟩ := hd he
    rw [hk'] at hn'
    cases hn'
    obtain ⟨m, rfl, hm'⟩ := createNDim_ok hn
    obtain rfl : m = k' + 1 := by
      rcases hm' with h | ⟨h, -⟩ | ⟨h, -⟩
      · simp only [PyVal.int.injEq] at h; omega
      · cases h
      · cases h
    have key : HoldsIn reg'' f (.list xs) ↔ (Val.list xs = .null ∧ DeclaredNullable cm c) ∨
        HoldsIn reg'' (nDimList v (k' + 1)) (.list xs) := field_list (pgParse_bare hb) hfield
    rw [key, nDim_holds hsim hnp] at hx
    rcases hx with ⟨h, -⟩ | ⟨ys, h, hys⟩
    · cases h
    · cases h
      have hy := hys _ hk
      cases k' with
      | zero =>
        rcases hy with h | h
        · cases h
        · exact hno h
      | succ k' =>
        obtain ⟨zs, h, -⟩ := hy
        cases h
  · subst hbe
    have key : HoldsIn reg'' f (.list xs) ↔ (Val.list xs = .null ∧ DeclaredNullable cm c) ∨
        HoldsIn reg'' (selfList al v) (.list xs) := field_list (pgParse_bare hb) hfield
    rw [key] at hx
    rcases hx with ⟨h, -⟩ | hx
    · cases h
    · obtain ⟨ys, h, hys⟩ := (selfList_holds hsim hnp hr (hg'.trans hg) _ _).mp hx
      cases h
      rcases hys _ hk with h | ⟨zs, h, -⟩
      · exact hno h
      · cases h

/-- `moods MOOD[]`, where `MOOD` is an enum: the table is not read. -/
example (cfg : PgConfig) (t : RType) :
    ((Dialect.postgresql cfg).toRecap asciiCase [pgColumn "moods" "ARRAY" "_mood" "YES" .none (.int 1)] newRegistry).1 ≠ .ok t := by
  refine C142_others_refuted (e := "mood") (List.mem_singleton.mpr rfl) ⟨⟨"ARRAY", rfl, by decide +kernel⟩, rfl⟩
    ⟨by decide +kernel, by decide +kernel, by decide⟩ (by decide) ?_
  intro p hp
  simp only [knownStarts, List.mem_cons, List.not_mem_nil, or_false] at hp
  rcases hp with rfl | rfl | rfl <;> rintro ⟨r, hr⟩ <;> simp at hr

/-- `costs CHARGE[]`, where `CHARGE` is a domain of integers: the table is read, and the elements are strings. -/
example : ∃ fs a reg' f, (Dialect.postgresql {}).toRecap asciiCase [pgColumn "costs" "ARRAY" "_charge" "YES" .none (.int 1)]
      newRegistry = (.ok (.struct fs a), reg') ∧ fs[0]? = some f ∧ ¬HoldsIn reg' f (.list [.int 5]) := by
  have key : ∀ fs a reg' f, (Dialect.postgresql {}).toRecap asciiCase [pgColumn "costs" "ARRAY" "_charge" "YES" .none (.int 1)]
      newRegistry = (.ok (.struct fs a), reg') → fs[0]? = some f → ¬HoldsIn reg' f (.list [.int 5]) := fun fs a reg' f h hf =>
    C142_confused_refuted (e := "charge") (k := 5) h rfl hf (Grows.refl _) ⟨⟨"ARRAY", rfl, by decide +kernel⟩, rfl⟩
      ⟨by decide +kernel, by decide +kernel, by decide⟩ ⟨"char", by simp [knownStarts], "ge".toList, by decide⟩ (fun h => by cases h) (by simp)
  exact ⟨_, _, _, _, rfl, rfl, key _ _ _ _ rfl rfl⟩

end Recap.PgArrays
