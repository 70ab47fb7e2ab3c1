import Verif.ProtobufRound

/-!
# Round trips through Protobuf

Properties C65, C105.
-/

set_option autoImplicit false

namespace Recap.Protobuf

open Recap.Protobuf.Spec Recap.Spec

/-! ## From a file to a file -/

/-- **C65, for one message of required numbers and oneofs of several numbers** The file is read, and what is
read is written as a message with the same name in the same package, with the same fields and oneofs at the
same positions.  Numbers and cardinalities of fields are lost, and `sint32`, for example, becomes `int32`. -/
theorem C65_flat_partial {ns p n : String} {es : List Elem} (hq : FullyQualified (p ++ "." ++ n)) (hn : '.' ∉ n.toList)
    (he : ∀ e ∈ es, Simple e) : ∃ t c es', toRecap (newConverter ns) [.package p, .message n es] = .ok (t, c) ∧
      fromRecap t = .ok [.package p, .message n es'] ∧ Each Same es es' := by
  obtain ⟨fs, c, D, h1, h2⟩ := toRecap_basic (ns₀ := ns) hq (fun e h => simple_basic (he e h))
  obtain ⟨es', h3, h4⟩ := fields_write he h2 1 []
  exact ⟨_, c, es', h1, fromRecap_flat ⟨rfl, hn⟩ h3, h4⟩

example : FullyQualified ("p" ++ "." ++ "T") ∧ '.' ∉ "T".toList ∧
    ∀ e ∈ [Elem.field (.str "x") 7 "sint32" (some .required),
      .oneof (.str "o") [.field (.str "a") 2 "bool" .none, .field (.str "b") 3 "double" .none]], Simple e := by
  refine ⟨(aliasOk_iff _).mp (by decide +kernel), by decide, fun e he => ?_⟩
  simp only [List.mem_cons, List.not_mem_nil, or_false] at he
  rcases he with rfl | rfl
  · exact .inl ⟨_, _, _, rfl, by simp [Number]⟩
  · refine .inr ⟨_, _, rfl, by decide, fun x hx => ?_⟩
    simp only [List.mem_cons, List.not_mem_nil, or_false] at hx
    rcases hx with rfl | rfl <;> exact ⟨_, _, _, _, rfl, by simp [Number]⟩

/-- A field that is read as something that cannot be written. -/
theorem not_written {fs : List RType} {a : Attrs} {f : RType} (hf : f ∈ fs) (h : ∀ k e, toField k f ≠ .ok e)
    (file : List Elem) : fromRecap (.struct fs a) ≠ .ok file := by
  intro hw
  obtain ⟨st, _, _, _, hg, -⟩ := fromRecap_ok hw
  obtain ⟨_, _, es, -, h1⟩ := gather_struct hg
  obtain ⟨i, hi⟩ := List.getElem?_of_mem hf
  obtain ⟨e, -, h2⟩ := toFields_at h1 hi
  exact h _ _ h2

/-- A string or bytes as they are read from Protobuf are too long to be written. -/
theorem text_not_written {D : Decls} {ns s : String} {x : Dict} {t : RType} (hs : s = "string" ∨ s = "bytes")
    (h : Reads D ns s x t) : t.isNull = false ∧ ∀ k e, toField k t ≠ .ok e := by
  rcases hs with rfl | rfl
  · have := reads_scalar (v := .string (.int (2 ^ 31)) (.bool true) {}) (by decide +kernel) h
    subst this
    exact ⟨rfl, fun k e h => by cases h⟩
  · have := reads_scalar (v := .bytes (.int (2 ^ 31)) (.bool true) {}) (by decide +kernel) h
    subst this
    exact ⟨rfl, fun k e h => by cases h⟩

/-- A union of null and a type cannot be written if the type cannot. -/
theorem optional_not_written {t : RType} {a b : Attrs} (hn : t.isNull = false) (h : ∀ k e, toField k t ≠ .ok e) :
    ∀ k e, toField k (.union [.null a, t] b) ≠ .ok e := by
  intro k e hw
  obtain ⟨es, h1, -⟩ := toField_union hw
  simp only [toMembers, show (RType.null a).isNull = true from rfl, hn, if_true] at h1
  obtain ⟨y, h2, -⟩ := ok_bind h1
  exact h _ _ h2

/-- **C65 is false**: if the first message has a field of the type `string` or `bytes`, what is read from the
file is never written. -/
theorem C65_text_refuted {c c' : Converter} {D : Decls} {file es : List Elem} {name : String} {t : RType} (hc : Has_read c D)
    (h : toRecap c file = .ok (t, c')) (hf : firstMessage file = some (name, es)) {x : PyVal} {k : Int} {s : String}
    {card : Option Card} (he : .field x k s card ∈ es) (hs : s = "string" ∨ s = "bytes") (file' : List Elem) :
    fromRecap t ≠ .ok file' := by
  obtain ⟨root, ns, hns, -⟩ := toRecap_ok h
  obtain ⟨name', es', fs, h1, rfl, h3⟩ := C99_meaning hc hns h
  rw [hf] at h1
  cases h1
  obtain ⟨f, hm, h4⟩ := Fields.mem he (by simp [label]) h3
  refine not_written hm ?_ file'
  cases h4 with
  | required h4 => exact (text_not_written hs h4).2
  | optional _ _ h4 =>
    obtain ⟨h5, h6⟩ := text_not_written hs h4
    exact optional_not_written h5 h6
  | null => rcases hs with hs | hs <;> exact absurd hs (by decide)
  | repeated h4 =>
    obtain ⟨h5, h6⟩ := text_not_written hs h4
    refine optional_not_written rfl (fun k e hw => ?_)
    simp only [toField] at hw
    obtain ⟨y, h7, -⟩ := ok_bind hw
    exact h6 _ _ h7

example : ∃ r, toRecap (newConverter "_root") [.message "A" [.field (.str "x") 1 "string" .none]] = .ok r ∧
    firstMessage [.message "A" [.field (.str "x") 1 "string" .none]] = some ("A", [.field (.str "x") 1 "string" .none]) :=
  ⟨_, rfl, rfl⟩

/-- **C65 is false**: if the first message has a map field, what is read from the file is never written. -/
theorem C65_map_refuted {c c' : Converter} {D : Decls} {file es : List Elem} {name : String} {t : RType} (hc : Has_read c D)
    (h : toRecap c file = .ok (t, c')) (hf : firstMessage file = some (name, es)) {x : PyVal} {k : Int} {key value : String}
    (he : .mapField x k key value ∈ es) (file' : List Elem) : fromRecap t ≠ .ok file' := by
  obtain ⟨root, ns, hns, -⟩ := toRecap_ok h
  obtain ⟨name', es', fs, h1, rfl, h3⟩ := C99_meaning hc hns h
  rw [hf] at h1
  cases h1
  obtain ⟨f, hm, h4⟩ := Fields.mem he (by simp [label]) h3
  refine not_written hm ?_ file'
  cases h4 with
  | @map _ _ _ _ _ t u _ _ _ =>
    intro k e hw
    obtain ⟨es, h1, h2⟩ := toField_union hw
    simp only [toMembers, show (RType.null {}).isNull = true from rfl, show (RType.map t u {}).isNull = false from rfl, if_true] at h1
    obtain ⟨y, h3, h4⟩ := ok_bind h1
    cases h4
    rcases h2 with ⟨z, h5, h6⟩ | ⟨-, h5⟩
    · cases h5
      obtain ⟨nm, k', ty, c', rfl, rfl⟩ := setCard_ok h6
      simp only [toField] at h3
      obtain ⟨_, _, h⟩ := ok_bind h3
      obtain ⟨_, _, h⟩ := ok_bind h
      obtain ⟨_, _, h⟩ := ok_bind h
      obtain ⟨_, _, h⟩ := ok_bind h
      cases h
    · exact h5 rfl

example : ∃ r, toRecap (newConverter "_root") [.message "A" [.mapField (.str "x") 1 "int32" "bool"]] = .ok r ∧
    firstMessage [.message "A" [.mapField (.str "x") 1 "int32" "bool"]] =
      some ("A", [.mapField (.str "x") 1 "int32" "bool"]) := ⟨_, rfl, rfl⟩

/-- **C65 is false**: the field `b = 2` after a deleted field becomes the field `b = 1`. -/
theorem C65_number_refuted : ∃ t c, toRecap (newConverter "_root") [.package "p", .message "A"
      [.field (.str "b") 2 "bool" (some .required)]] = .ok (t, c) ∧
    fromRecap t = .ok [.package "p", .message "A" [.field (.str "b") 1 "bool" .none]] := ⟨_, _, rfl, rfl⟩

/-! ## From a type to a type -/

/-- **C105, for one struct of the types in `RoundField`** The struct is written, and what is written is read
as a struct with the same alias and with a field for each field at the same position, under the same name,
of the same kind and at least as wide.  All fields have become optional. -/
theorem C105_flat_partial {ns p n : String} {fs : List RType} {a : Attrs} (ha : a.alias = .str (p ++ "." ++ n))
    (hq : FullyQualified (p ++ "." ++ n)) (hn : '.' ∉ n.toList) (hf : ∀ f ∈ fs, RoundField f) :
    ∃ file fs' c, fromRecap (.struct fs a) = .ok file ∧
      toRecap (newConverter ns) file = .ok (.struct fs' { alias := .str (p ++ "." ++ n) }, c) ∧ Each Back fs fs' := by
  obtain ⟨es, h1, h2, h3⟩ := fields_back hf 1 []
  obtain ⟨fs', c, D, h4, h5⟩ := toRecap_basic (ns₀ := ns) hq h2
  exact ⟨_, fs', c, fromRecap_flat ⟨ha, hn⟩ h1, h4, h3 _ _ _ h5⟩

example : ∀ f ∈ [RType.int (.int 48) (.bool false) { extra := [("name", .str "x")] },
    .string (.int 255) (.bool true) { extra := [("name", .str "s")] },
    .union [.null {}, .bool { extra := [("name", .str "b")] }] { extra := [("name", .str "b")] },
    .union [.bool { extra := [("name", .str "c")] }, .float (.int 16) { extra := [("name", .str "d")] }]
      { extra := [("name", .str "o")] }], RoundField f := by
  intro f hf
  simp only [List.mem_cons, List.not_mem_nil, or_false] at hf
  rcases hf with rfl | rfl | rfl | rfl
  · exact ⟨.str "x", rfl, .inr (.inl (by simp [Writable]))⟩
  · exact ⟨.str "s", rfl, .inr (.inl (by simp [Writable]))⟩
  · exact ⟨.str "b", rfl, .inr (.inr ⟨_, _, rfl, .inl ⟨_, rfl, trivial, rfl⟩⟩)⟩
  · refine ⟨.str "o", rfl, .inr (.inr ⟨_, _, rfl, .inr ⟨by decide, fun t ht => ?_⟩⟩)⟩
    simp [members, RType.isNull] at ht
    rcases ht with rfl | rfl
    · exact ⟨trivial, _, rfl⟩
    · exact ⟨by simp [Writable], _, rfl⟩

/-- **C105 is false**: if a struct has a field that is an enum or a reference, and no struct is nested in it,
what is written for it is never read. -/
theorem C105_reference_refuted {t : RType} {fs : List RType} {a : Attrs} {f : RType} (ht : t = .struct fs a) (hf : f ∈ fs)
    (hk : (∃ symbols b, f = .enum symbols b) ∨ ∃ r b, f = .proxy r b)
    (hs : ∀ gs b, Sub (.struct gs b) t → RType.struct gs b = t) {file : List Elem} (h : fromRecap t = .ok file)
    {c : Converter} {D : Decls} (hc : Has_read c D) (r : RType × Converter) : toRecap c file ≠ .ok r := by
  intro hr
  obtain ⟨u, c'⟩ := r
  obtain ⟨root, ns, hns, -⟩ := toRecap_ok hr
  obtain ⟨name, es, fs', h1, -⟩ := C99_meaning hc hns hr
  obtain ⟨q, ⟨gs, b, n', es', rest, h2, -, h3, h4, -⟩ | ⟨_, _, _, _, _, _, _, h3⟩⟩ :=
    file_made h (.here (first_within h1)) ⟨name, rfl⟩
  · cases h4
    have h5 := hs _ _ h2
    subst ht
    cases h5
    obtain ⟨i, hi⟩ := List.getElem?_of_mem hf
    obtain ⟨e, h6, h7⟩ := toFields_at h3 hi
    have h8 : ∃ s, e = .field (nameOf f.attrs (1 + i)) (1 + i) ("." ++ s) .none := by
      rcases hk with ⟨symbols, b, rfl⟩ | ⟨r, b, rfl⟩ <;>
      · simp only [toField] at h7
        obtain ⟨path, h8, h9⟩ := ok_bind h7
        obtain ⟨s, -, rfl⟩ := pathOf_ok h8
        cases h9
        exact ⟨s, rfl⟩
    obtain ⟨s, rfl⟩ := h8
    have h9 := List.mem_of_getElem? h6
    exact C111_absolute_refuted hc h1 (.field (List.mem_append_left _ h9)) _ hr
  · cases h3

example : fromRecap exLoop = .ok [.package "p", .message "T" [.field (.str "x") 1 "int32" .none,
    .field (.str "next") 2 ".p.T" .none]] ∧ ∀ gs b, Sub (.struct gs b) exLoop → RType.struct gs b = exLoop := by
  refine ⟨rfl, fun gs b h => ?_⟩
  rcases exLoop_sub h with h | h | h
  · exact h
  · cases h
  · cases h

/-- **C105 is false**: a struct `p.A` with a field of the struct `p.B` comes back as `p.B`, the first message
in the file. -/
theorem C105_root_refuted : ∃ file fs c,
    fromRecap (.struct [.struct [int32 "x"] { alias := .str "p.B", extra := [("name", .str "b")] }] { alias := .str "p.A" }) =
      .ok file ∧ toRecap (newConverter "_root") file = .ok (.struct fs { alias := .str "p.B" }, c) := ⟨_, _, _, rfl, rfl⟩

end Recap.Protobuf
