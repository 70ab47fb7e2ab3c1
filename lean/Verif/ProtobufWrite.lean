import Verif.ProtobufSpec
import Verif.AvroRead

/-!
# Lemmas about writing Protobuf files
-/

set_option autoImplicit false

namespace Recap.Protobuf

open Recap.Protobuf.Spec Recap.Spec
open Recap.Avro (hasDot rsplitDot)

/-! ## Names -/

theorem split_last (l : List Char) (h : '.' ∈ l) :
    ((l.dropWhile (· ≠ '.')).drop 1).reverse ++ '.' :: (l.takeWhile (· ≠ '.')).reverse = l.reverse ∧
      '.' ∉ (l.takeWhile (· ≠ '.')).reverse := by
  induction l with
  | nil => simp at h
  | cons c l ih =>
    by_cases hc : c = '.'
    · subst hc; simp
    · have hl : '.' ∈ l := by
        rcases List.mem_cons.mp h with h | h
        · exact absurd h.symm hc
        · exact h
      obtain ⟨h1, h2⟩ := ih hl
      have e1 : (c :: l).dropWhile (· ≠ '.') = l.dropWhile (· ≠ '.') := by simp [List.dropWhile_cons, hc]
      have e2 : (c :: l).takeWhile (· ≠ '.') = c :: l.takeWhile (· ≠ '.') := by simp [List.takeWhile_cons, hc]
      rw [e1, e2]
      simp only [List.reverse_cons]
      rw [← h1]
      refine ⟨by simp, ?_⟩
      simp only [List.mem_append, List.mem_singleton, not_or]
      exact ⟨h2, fun h => hc h.symm⟩

theorem rsplitDot_spec {s p n : String} (h : hasDot s = true) (hs : rsplitDot s = (p, n)) :
    s = p ++ "." ++ n ∧ '.' ∉ n.toList := by
  unfold hasDot at h
  have hm : '.' ∈ s.toList.reverse := by simpa using h
  obtain ⟨h1, h2⟩ := split_last _ hm
  unfold rsplitDot at hs
  simp only [Prod.mk.injEq] at hs
  obtain ⟨rfl, rfl⟩ := hs
  refine ⟨?_, by rw [String.toList_ofList]; exact h2⟩
  apply String.toList_injective
  rw [String.toList_append, String.toList_append, String.toList_ofList, String.toList_ofList]
  rw [String.toList_ofList, List.append_assoc, List.singleton_append, h1, List.reverse_reverse]

theorem structName_ok {alias : PyVal} {p n : String} : structName alias = .ok (p, n) ↔
    alias = .str (p ++ "." ++ n) ∧ '.' ∉ n.toList := by
  constructor
  · intro h
    unfold structName at h
    split at h
    · split at h
      · rename_i hd
        cases h
        obtain ⟨h1, h2⟩ := rsplitDot_spec hd rfl
        exact ⟨by rw [← h1], h2⟩
      · cases h
    · cases h
    · cases h
  · rintro ⟨rfl, h⟩
    simp [structName, Avro.hasDot_append, Avro.rsplitDot_append h]

theorem enumName_ok {alias : PyVal} {p n : String} : enumName alias = .ok (p, n) ↔
    alias = .str (p ++ "." ++ n) ∧ '.' ∉ n.toList := by
  constructor
  · intro h
    unfold enumName at h
    split at h
    · split at h
      · rename_i hd
        cases h
        obtain ⟨h1, h2⟩ := rsplitDot_spec hd rfl
        exact ⟨by rw [← h1], h2⟩
      · cases h
    · cases h
    · cases h
  · rintro ⟨rfl, h⟩
    simp [enumName, Avro.hasDot_append, Avro.rsplitDot_append h]

/-! ## What is gathered -/

/-- The fields of a message, with consecutive numbers. -/
def toFields : Int → List RType → Except PyErr (List Elem)
  | _, [] => .ok []
  | n, f :: fs => do
    let e ← toField n f
    let es ← toFields (n + 1) fs
    pure (e :: es)

/-- `d` is among the declarations in the package. -/
def In (st : Store) (p : String) (d : Elem) : Prop := ∃ ds, declared st p = some ds ∧ d ∈ ds

theorem in_insert {st : Store} {p q : String} {d e : Elem} :
    In (insert st q e) p d ↔ In st p d ∨ (p = q ∧ d = e) := by
  unfold In
  induction st with
  | nil =>
    simp only [insert, declared]
    by_cases h : q = p
    · subst h; simp
    · simp [h, Ne.symm h]
  | cons x st ih =>
    obtain ⟨k, es⟩ := x
    simp only [insert, declared]
    by_cases h : k = q
    · subst h
      rw [if_pos rfl]
      by_cases h' : k = p
      · subst h'; simp [declared]
      · simp [declared, h', Ne.symm h']
    · rw [if_neg h]
      simp only [declared]
      by_cases h' : k = p
      · subst h'; simp [h]
      · simp only [h', if_false]; exact ih

/-- `d` is what is written for a struct or an enum in `t` in the package. -/
def Source (t : RType) (p : String) (d : Elem) : Prop :=
  (∃ fs a n es, Sub (.struct fs a) t ∧ Alias a p n ∧ toFields 1 fs = .ok es ∧ d = .message n es) ∨
  ∃ symbols a n xs, Sub (.enum symbols a) t ∧ Alias a p n ∧ symbols.iter = .ok xs ∧ d = .enum n (numbered 0 xs)

theorem Source.mono {t u : RType} {p : String} {d : Elem} (h : Source u p d) (hs : ∀ v, Sub v u → Sub v t) :
    Source t p d := by
  rcases h with ⟨fs, a, n, es, h1, h2⟩ | ⟨s, a, n, xs, h1, h2⟩
  · exact .inl ⟨fs, a, n, es, hs _ h1, h2⟩
  · exact .inr ⟨s, a, n, xs, hs _ h1, h2⟩

theorem Source.of_sub {t : RType} {p : String} {d : Elem} {us : List RType} (h : Source t p d)
    (hs : ∀ v, Sub v t → (∃ fs a, v = .struct fs a) ∨ (∃ s a, v = .enum s a) → ∃ u ∈ us, Sub v u) :
    ∃ u ∈ us, Source u p d := by
  rcases h with ⟨fs, a, n, es, h1, h2⟩ | ⟨s, a, n, xs, h1, h2⟩
  · obtain ⟨u, hu, h3⟩ := hs _ h1 (.inl ⟨_, _, rfl⟩)
    exact ⟨u, hu, .inl ⟨fs, a, n, es, h3, h2⟩⟩
  · obtain ⟨u, hu, h3⟩ := hs _ h1 (.inr ⟨_, _, rfl⟩)
    exact ⟨u, hu, .inr ⟨s, a, n, xs, h3, h2⟩⟩

/-- Nothing is written for a type without structs and enums. -/
theorem Source.leaf {t : RType} {p : String} {d : Elem} (hl : ∀ v, Sub v t → v = t)
    (h1 : ∀ fs a, t ≠ .struct fs a) (h2 : ∀ s a, t ≠ .enum s a) : ¬ Source t p d := by
  rintro (⟨fs, a, n, es, h, -⟩ | ⟨s, a, n, xs, h, -⟩)
  · exact h1 _ _ (hl _ h).symm
  · exact h2 _ _ (hl _ h).symm

mutual
theorem gather_has : ∀ (t : RType) {st st' : Store}, gather t st = .ok st' →
    ∀ p d, In st' p d ↔ In st p d ∨ Source t p d
  | .null a, st, st', h, p, d => by
    simp only [gather] at h; cases h
    simp [Source.leaf (t := .null a) (fun v hv => by cases hv; rfl) (by simp) (by simp)]
  | .bool a, st, st', h, p, d => by
    simp only [gather] at h; cases h
    simp [Source.leaf (t := .bool a) (fun v hv => by cases hv; rfl) (by simp) (by simp)]
  | .int b s a, st, st', h, p, d => by
    simp only [gather] at h; cases h
    simp [Source.leaf (t := .int b s a) (fun v hv => by cases hv; rfl) (by simp) (by simp)]
  | .float b a, st, st', h, p, d => by
    simp only [gather] at h; cases h
    simp [Source.leaf (t := .float b a) (fun v hv => by cases hv; rfl) (by simp) (by simp)]
  | .string b s a, st, st', h, p, d => by
    simp only [gather] at h; cases h
    simp [Source.leaf (t := .string b s a) (fun v hv => by cases hv; rfl) (by simp) (by simp)]
  | .bytes b s a, st, st', h, p, d => by
    simp only [gather] at h; cases h
    simp [Source.leaf (t := .bytes b s a) (fun v hv => by cases hv; rfl) (by simp) (by simp)]
  | .proxy r a, st, st', h, p, d => by
    simp only [gather] at h; cases h
    simp [Source.leaf (t := .proxy r a) (fun v hv => by cases hv; rfl) (by simp) (by simp)]
  | .list t l w a, st, st', h, p, d => by
    simp only [gather] at h
    rw [gather_has t h]
    refine or_congr_right ⟨fun h => h.mono fun v => .list, fun h => ?_⟩
    obtain ⟨u, hu, h⟩ := h.of_sub (us := [t]) fun v hv hk => by
      cases hv with
      | refl => rcases hk with ⟨_, _, h⟩ | ⟨_, _, h⟩ <;> cases h
      | list h => exact ⟨t, by simp, h⟩
    simp at hu
    exact hu ▸ h
  | .map k t a, st, st', h, p, d => by
    simp only [gather] at h
    obtain ⟨st1, h1, h2⟩ := ok_bind h
    rw [gather_has t h2, gather_has k h1, or_assoc]
    refine or_congr_right ⟨fun h => ?_, fun h => ?_⟩
    · rcases h with h | h
      · exact h.mono fun v => .key
      · exact h.mono fun v => .value
    · obtain ⟨u, hu, h'⟩ := h.of_sub (us := [k, t]) fun v hv hk => by
        cases hv with
        | refl => rcases hk with ⟨_, _, h⟩ | ⟨_, _, h⟩ <;> cases h
        | key h => exact ⟨k, by simp, h⟩
        | value h => exact ⟨t, by simp, h⟩
      simp at hu
      rcases hu with rfl | rfl
      · exact .inl h'
      · exact .inr h'
  | .union ts a, st, st', h, p, d => by
    simp only [gather] at h
    rw [gatherAll_has ts h]
    refine or_congr_right ⟨fun ⟨t, ht, h⟩ => h.mono fun v hv => .member ht hv, fun h => ?_⟩
    exact h.of_sub fun v hv hk => by
      cases hv with
      | refl => rcases hk with ⟨_, _, h⟩ | ⟨_, _, h⟩ <;> cases h
      | member h1 h2 => exact ⟨_, h1, h2⟩
  | .enum s a, st, st', h, p, d => by
    simp only [gather] at h
    obtain ⟨⟨q, n⟩, h1, h⟩ := ok_bind h
    obtain ⟨xs, h2, h⟩ := ok_bind h
    cases h
    rw [in_insert]
    refine or_congr_right ⟨?_, ?_⟩
    · rintro ⟨rfl, rfl⟩
      exact .inr ⟨s, a, n, xs, .refl, enumName_ok.mp h1, h2, rfl⟩
    · rintro (⟨fs, a', n', es, h3, -⟩ | ⟨s', a', n', xs', h3, h4, h5, rfl⟩)
      · cases h3
      · cases h3
        have := enumName_ok.mpr h4
        rw [h1] at this; cases this
        rw [h2] at h5; cases h5
        exact ⟨rfl, rfl⟩
  | .struct fs a, st, st', h, p, d => by
    simp only [gather] at h
    obtain ⟨⟨q, n⟩, h1, h⟩ := ok_bind h
    obtain ⟨⟨es, st1⟩, h2, h⟩ := ok_bind h
    cases h
    obtain ⟨h3, h4⟩ := gatherFields_has fs h2
    rw [in_insert, h4, or_assoc]
    refine or_congr_right ⟨?_, ?_⟩
    · rintro (⟨f, hf, h⟩ | ⟨rfl, rfl⟩)
      · exact h.mono fun v hv => .field hf hv
      · exact .inl ⟨fs, a, n, es, .refl, structName_ok.mp h1, h3, rfl⟩
    · rintro (⟨fs', a', n', es', h5, h6, h7, rfl⟩ | ⟨s', a', n', xs', h5, h6⟩)
      · cases h5 with
        | refl =>
          have := structName_ok.mpr h6
          rw [h1] at this; cases this
          rw [h3] at h7; cases h7
          exact .inr ⟨rfl, rfl⟩
        | field hf hs => exact .inl ⟨_, hf, .inl ⟨fs', a', n', es', hs, h6, h7, rfl⟩⟩
      · cases h5 with
        | field hf hs => exact .inl ⟨_, hf, .inr ⟨s', a', n', xs', hs, h6⟩⟩
theorem gatherAll_has : ∀ (ts : List RType) {st st' : Store}, gatherAll ts st = .ok st' →
    ∀ p d, In st' p d ↔ In st p d ∨ ∃ t ∈ ts, Source t p d
  | [], st, st', h, p, d => by simp only [gatherAll] at h; cases h; simp
  | t :: ts, st, st', h, p, d => by
    simp only [gatherAll] at h
    obtain ⟨st1, h1, h2⟩ := ok_bind h
    rw [gatherAll_has ts h2, gather_has t h1, or_assoc]
    simp
theorem gatherFields_has : ∀ (fs : List RType) {n : Int} {st st' : Store} {es : List Elem},
    gatherFields n fs st = .ok (es, st') →
    toFields n fs = .ok es ∧ ∀ p d, In st' p d ↔ In st p d ∨ ∃ t ∈ fs, Source t p d
  | [], n, st, st', es, h => by simp only [gatherFields] at h; cases h; simp [toFields]
  | f :: fs, n, st, st', es, h => by
    simp only [gatherFields] at h
    obtain ⟨e, h1, h⟩ := ok_bind h
    obtain ⟨st1, h2, h⟩ := ok_bind h
    obtain ⟨⟨es1, st2⟩, h3, h⟩ := ok_bind h
    cases h
    obtain ⟨h4, h5⟩ := gatherFields_has fs h3
    refine ⟨by simp [toFields, h1, h4, bind, Except.bind, pure, Except.pure], fun p d => ?_⟩
    rw [h5, gather_has f h2, or_assoc]
    simp
end

/-! ## How it is nested -/

theorem mapM_mem {α β : Type} {f : α → Except PyErr β} : ∀ {xs : List α} {ys : List β}, xs.mapM f = .ok ys →
    (∀ y ∈ ys, ∃ x ∈ xs, f x = .ok y) ∧ ∀ x ∈ xs, ∃ y ∈ ys, f x = .ok y
  | [], ys, h => by simp [pure, Except.pure] at h; subst h; simp
  | x :: xs, ys, h => by
    rw [List.mapM_cons] at h
    obtain ⟨y, h1, h⟩ := ok_bind h
    obtain ⟨ys1, h2, h⟩ := ok_bind h
    cases h
    obtain ⟨h3, h4⟩ := mapM_mem h2
    constructor
    · intro z hz
      rcases List.mem_cons.mp hz with rfl | hz
      · exact ⟨x, by simp, h1⟩
      · obtain ⟨w, hw, h⟩ := h3 z hz
        exact ⟨w, by simp [hw], h⟩
    · intro z hz
      rcases List.mem_cons.mp hz with rfl | hz
      · exact ⟨y, by simp, h1⟩
      · obtain ⟨w, hw, h⟩ := h4 z hz
        exact ⟨w, by simp [hw], h⟩

/-- The declaration `e` is `d`, or `d` is a message and `e` has in addition what is declared in its
package. -/
def Grown (st : Store) (n calls : Nat) (p : String) (d e : Elem) : Prop :=
  (∃ name es k sub, d = .message name es ∧ (In st p d → 0 < calls → 0 < k) ∧
    construct st n k (p ++ "." ++ name) = .ok sub ∧ e = .message name (es ++ times calls sub)) ∨
  (e = d ∧ ∀ name es, d ≠ .message name es)

theorem copies_pos {ds : List Elem} {name : String} {es : List Elem} (h : .message name es ∈ ds) :
    0 < copies name ds := by
  induction ds with
  | nil => simp at h
  | cons d ds ih =>
    rcases List.mem_cons.mp h with h | h
    · subst h; simp [copies]; omega
    · have := ih h
      cases d <;> simp only [copies] <;> omega

theorem construct_mem {st : Store} {n calls : Nat} {p : String} {out : List Elem}
    (h : construct st n calls p = .ok out) :
    (∀ e ∈ out, ∃ m d, n = m + 1 ∧ In st p d ∧ Grown st m calls p d e) ∧
    ∀ d, In st p d → ∃ m, ∃ e ∈ out, n = m + 1 ∧ Grown st m calls p d e := by
  unfold construct at h
  split at h
  · rename_i hd
    cases h
    refine ⟨by simp, ?_⟩
    rintro d ⟨ds, h1, -⟩
    rw [hd] at h1; cases h1
  · rename_i ds hd
    cases n with
    | zero => cases h
    | succ n =>
      simp only at h
      obtain ⟨h1, h2⟩ := mapM_mem h
      have key : ∀ d e, d ∈ ds → (match d with
          | .message name es => do
            let sub ← construct st n (calls * copies name ds) (p ++ "." ++ name)
            pure (.message name (es ++ times calls sub))
          | d => pure d : Except PyErr Elem) = .ok e → Grown st n calls p d e := by
        intro d e hm hx
        split at hx
        · rename_i name es
          obtain ⟨sub, hs, hx⟩ := ok_bind hx
          cases hx
          refine .inl ⟨name, es, _, sub, rfl, fun _ hc => ?_, hs, rfl⟩
          exact Nat.mul_pos hc (copies_pos hm)
        · cases hx
          rename_i hne
          exact .inr ⟨rfl, hne⟩
      constructor
      · intro e he
        obtain ⟨d, hm, hx⟩ := h1 e he
        exact ⟨n, d, rfl, ⟨ds, hd, hm⟩, key d e hm hx⟩
      · rintro d ⟨ds', h3, hm⟩
        rw [hd] at h3; cases h3
        obtain ⟨e, he, hx⟩ := h2 d hm
        exact ⟨n, e, he, rfl, key d e hm hx⟩

theorem mem_times {α : Type} {n : Nat} {xs : List α} {x : α} (h : x ∈ times n xs) : x ∈ xs := by
  unfold times at h
  obtain ⟨l, hl, hx⟩ := List.mem_flatten.mp h
  rw [List.eq_of_mem_replicate hl] at hx
  exact hx

theorem times_mem {α : Type} {n : Nat} {xs : List α} {x : α} (hn : 0 < n) (h : x ∈ xs) : x ∈ times n xs := by
  unfold times
  exact List.mem_flatten.mpr ⟨xs, List.mem_replicate.mpr ⟨by omega, rfl⟩, h⟩

/-- The message is written for a struct, or the enum for an enum, in `t`; in addition a message has
nested messages and enums. -/
def Made (t : RType) (p : String) (e : Elem) : Prop :=
  (∃ fs a n es rest, Sub (.struct fs a) t ∧ Alias a p n ∧ toFields 1 fs = .ok es ∧ e = .message n (es ++ rest) ∧
    ∀ x ∈ rest, ∃ m, Spec.nameOf x = some m) ∨
  ∃ symbols a n xs, Sub (.enum symbols a) t ∧ Alias a p n ∧ symbols.iter = .ok xs ∧ e = .enum n (numbered 0 xs)

theorem construct_named {st : Store} {n calls : Nat} {p : String} {out : List Elem} {t : RType}
    (hst : ∀ p d, In st p d → Source t p d) (h : construct st n calls p = .ok out) :
    ∀ e ∈ out, Made t p e := by
  induction n generalizing calls p out with
  | zero =>
    intro e he
    obtain ⟨m, -, hm, -⟩ := (construct_mem h).1 e he
    cases hm
  | succ n ih =>
    intro e he
    obtain ⟨m, d, hm, hin, hg⟩ := (construct_mem h).1 e he
    cases hm
    rcases hg with ⟨name, es, k, sub, rfl, -, hc, rfl⟩ | ⟨rfl, hne⟩
    · rcases hst _ _ hin with ⟨fs, a, n', es', h1, h2, h3, h4⟩ | ⟨s, a, n', xs, h1, h2, h3, h4⟩
      · cases h4
        refine .inl ⟨fs, a, _, es, _, h1, h2, h3, rfl, fun x hx => ?_⟩
        rcases ih hc x (mem_times hx) with ⟨_, _, n', _, _, _, _, _, rfl, _⟩ | ⟨_, _, n', _, _, _, _, rfl⟩
        · exact ⟨n', rfl⟩
        · exact ⟨n', rfl⟩
      · cases h4
    · rcases hst _ _ hin with ⟨fs, a, n', es', h1, h2, h3, h4⟩ | ⟨s, a, n', xs, h1, h2, h3, h4⟩
      · exact absurd h4 (hne _ _)
      · exact .inr ⟨s, a, n', xs, h1, h2, h3, h4⟩

/-! ## Fields -/

theorem setCard_ok {c : Card} {e e' : Elem} (h : setCard c e = .ok e') :
    ∃ nm n ty c', e = .field nm n ty c' ∧ e' = .field nm n ty (some c) := by
  cases e <;> simp only [setCard] at h <;> cases h
  exact ⟨_, _, _, _, rfl, rfl⟩

/-- Something is written for a union: an optional field or a oneof. -/
theorem toField_union {n : Int} {ts : List RType} {a : Attrs} {e : Elem} (h : toField n (.union ts a) = .ok e) :
    ∃ es, toMembers n ts = .ok es ∧ ((∃ x, es = [x] ∧ setCard .optional x = .ok e) ∨
      (e = .oneof (nameOf a n) es ∧ es.length ≠ 1)) := by
  simp only [toField] at h
  obtain ⟨es, h1, h⟩ := ok_bind h
  refine ⟨es, h1, ?_⟩
  split at h
  · exact .inl ⟨_, rfl, h⟩
  · rename_i hne
    cases h
    refine .inr ⟨rfl, fun hl => ?_⟩
    match es, hl with
    | [x], _ => exact hne x rfl

theorem toMembers_length {ts : List RType} : ∀ {n : Int} {es : List Elem}, toMembers n ts = .ok es →
    es.length = (members ts).length := by
  induction ts with
  | nil => intro n es h; simp only [toMembers] at h; cases h; rfl
  | cons t ts ih =>
    intro n es h
    simp only [toMembers] at h
    split at h
    · rename_i hn; rw [ih h]; simp [members, hn]
    · rename_i hn
      obtain ⟨e, h1, h⟩ := ok_bind h
      obtain ⟨es1, h2, h⟩ := ok_bind h
      cases h
      simp [members, hn, ih h2]

mutual
/-- What is written for a field: a field with the given number, a map field with the given number, or a
oneof. -/
theorem toField_kind : ∀ (t : RType) {n : Int} {e : Elem}, toField n t = .ok e →
    (∃ nm ty c, e = .field nm n ty c) ∨ (∃ nm k v, e = .mapField nm n k v) ∨
      ∃ ts a nm es, t = .union ts a ∧ e = .oneof nm es ∧ toMembers n ts = .ok es ∧ es.length ≠ 1
  | .null a, n, e, h => by
    simp only [toField] at h; obtain ⟨_, _, h⟩ := ok_bind h; cases h; exact .inl ⟨_, _, _, rfl⟩
  | .bool a, n, e, h => by
    simp only [toField] at h; obtain ⟨_, _, h⟩ := ok_bind h; cases h; exact .inl ⟨_, _, _, rfl⟩
  | .int b s a, n, e, h => by
    simp only [toField] at h; obtain ⟨_, _, h⟩ := ok_bind h; cases h; exact .inl ⟨_, _, _, rfl⟩
  | .float b a, n, e, h => by
    simp only [toField] at h; obtain ⟨_, _, h⟩ := ok_bind h; cases h; exact .inl ⟨_, _, _, rfl⟩
  | .string b s a, n, e, h => by
    simp only [toField] at h; obtain ⟨_, _, h⟩ := ok_bind h; cases h; exact .inl ⟨_, _, _, rfl⟩
  | .bytes b s a, n, e, h => by
    simp only [toField] at h; obtain ⟨_, _, h⟩ := ok_bind h; cases h; exact .inl ⟨_, _, _, rfl⟩
  | .proxy r a, n, e, h => by
    simp only [toField] at h; obtain ⟨_, _, h⟩ := ok_bind h; cases h; exact .inl ⟨_, _, _, rfl⟩
  | .struct fs a, n, e, h => by
    simp only [toField] at h; obtain ⟨_, _, h⟩ := ok_bind h; cases h; exact .inl ⟨_, _, _, rfl⟩
  | .enum s a, n, e, h => by
    simp only [toField] at h; obtain ⟨_, _, h⟩ := ok_bind h; cases h; exact .inl ⟨_, _, _, rfl⟩
  | .list t l w a, n, e, h => by
    simp only [toField] at h
    obtain ⟨x, h1, h⟩ := ok_bind h
    obtain ⟨nm, k, ty, c, rfl, rfl⟩ := setCard_ok h
    rcases toField_kind t h1 with ⟨_, _, _, h2⟩ | ⟨_, _, _, h2⟩ | ⟨_, _, _, _, _, h2, _⟩ <;> cases h2
    exact .inl ⟨_, _, _, rfl⟩
  | .map k t a, n, e, h => by
    simp only [toField] at h
    obtain ⟨_, _, h⟩ := ok_bind h
    obtain ⟨_, _, h⟩ := ok_bind h
    obtain ⟨_, _, h⟩ := ok_bind h
    obtain ⟨_, _, h⟩ := ok_bind h
    cases h
    exact .inr (.inl ⟨_, _, _, rfl⟩)
  | .union ts a, n, e, h => by
    obtain ⟨es, h1, h2⟩ := toField_union h
    rcases h2 with ⟨x, rfl, h3⟩ | ⟨rfl, h3⟩
    · obtain ⟨nm, k, ty, c, rfl, rfl⟩ := setCard_ok h3
      rcases toMembers_kind ts h1 with ⟨_, _, _, h2⟩ | ⟨_, _, _, h2⟩ | ⟨_, _, h2⟩ <;> cases h2
      exact .inl ⟨_, _, _, rfl⟩
    · exact .inr (.inr ⟨ts, a, _, es, rfl, rfl, h1, h3⟩)
theorem toMembers_kind : ∀ (ts : List RType) {n : Int} {e : Elem}, toMembers n ts = .ok [e] →
    (∃ nm ty c, e = .field nm n ty c) ∨ (∃ nm k v, e = .mapField nm n k v) ∨ ∃ nm es, e = .oneof nm es
  | [], n, e, h => by simp [toMembers] at h
  | t :: ts, n, e, h => by
    simp only [toMembers] at h
    split at h
    · exact toMembers_kind ts h
    · obtain ⟨x, h1, h⟩ := ok_bind h
      obtain ⟨es, h2, h⟩ := ok_bind h
      cases h
      rcases toField_kind t h1 with h | h | ⟨_, _, _, _, _, h, _⟩
      · exact .inl h
      · exact .inr (.inl h)
      · exact .inr (.inr ⟨_, _, h⟩)
end

theorem toField_nameless {t : RType} {n : Int} {e : Elem} (h : toField n t = .ok e) : Spec.nameOf e = .none := by
  rcases toField_kind t h with ⟨_, _, _, rfl⟩ | ⟨_, _, _, rfl⟩ | ⟨_, _, _, _, _, rfl, _⟩ <;> rfl

theorem toFields_get {fs : List RType} {n : Int} {es : List Elem} (h : toFields n fs = .ok es) :
    es.length = fs.length ∧ ∀ (i : Nat) e, es[i]? = some e → ∃ f, fs[i]? = some f ∧ toField (n + i) f = .ok e := by
  induction fs generalizing n es with
  | nil => cases h; simp
  | cons f fs ih =>
    simp only [toFields] at h
    obtain ⟨e, h1, h⟩ := ok_bind h
    obtain ⟨es1, h2, h⟩ := ok_bind h
    cases h
    obtain ⟨h3, h4⟩ := ih h2
    refine ⟨by simp [h3], fun i x hx => ?_⟩
    cases i with
    | zero => simp at hx; subst hx; exact ⟨f, rfl, by simpa using h1⟩
    | succ i =>
      obtain ⟨g, h5, h6⟩ := h4 i x (by simpa using hx)
      refine ⟨g, by simpa using h5, ?_⟩
      rw [← h6]
      congr 1
      omega

theorem toFields_nameless {fs : List RType} {n : Int} {es : List Elem} (h : toFields n fs = .ok es) :
    ∀ e ∈ es, Spec.nameOf e = .none := by
  intro e he
  obtain ⟨i, hi⟩ := List.getElem?_of_mem he
  obtain ⟨f, -, hf⟩ := (toFields_get h).2 i e hi
  exact toField_nameless hf

/-- Every message or enum in the file, at any depth, is written for a struct or an enum. -/
theorem construct_within {st : Store} {n calls : Nat} {p : String} {out : List Elem} {t : RType}
    (hst : ∀ p d, In st p d → Source t p d) (h : construct st n calls p = .ok out) {e : Elem}
    (hw : Within e out) (hn : ∃ m, Spec.nameOf e = some m) : ∃ q, Made t q e := by
  induction n generalizing calls p out with
  | zero =>
    have hout : ∀ x, x ∉ out := fun x hx => by
      obtain ⟨m, -, hm, -⟩ := (construct_mem h).1 x hx
      cases hm
    cases hw with
    | here hm => exact absurd hm (hout _)
    | inside hm _ => exact absurd hm (hout _)
  | succ n ih =>
    cases hw with
    | here hm => exact ⟨p, construct_named hst h e hm⟩
    | inside hm hw =>
      rename_i name xs
      obtain ⟨m, d, hm, hin, hg⟩ := (construct_mem h).1 _ hm
      cases hm
      rcases hg with ⟨name', es, k, sub, rfl, -, hc, he⟩ | ⟨rfl, hne⟩
      · cases he
        rcases hst _ _ hin with ⟨fs, a, n', es', h1, h2, h3, h4⟩ | ⟨s, a, n', xs, h1, h2, h3, h4⟩
        · cases h4
          have hf : ∀ x ∈ es, Spec.nameOf x = .none := toFields_nameless h3
          have : Within e sub := by
            cases hw with
            | here hm =>
              rcases List.mem_append.mp hm with hm | hm
              · obtain ⟨m, hn⟩ := hn
                rw [hf e hm] at hn
                cases hn
              · exact .here (mem_times hm)
            | inside hm hw =>
              rcases List.mem_append.mp hm with hm | hm
              · have := hf _ hm
                simp [Spec.nameOf] at this
              · exact .inside (mem_times hm) hw
          exact ih hc this
        · cases h4
      · exact absurd rfl (hne _ _)

end Recap.Protobuf
