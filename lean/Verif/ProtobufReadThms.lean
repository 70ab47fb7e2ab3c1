import Verif.ProtobufReady
import Verif.AliasRegex

/-!
# What is read from Protobuf files

Properties C66, C99, C102, C107, C109, C110, C111.
-/

set_option autoImplicit false

namespace Recap.Protobuf

open Recap.Protobuf.Spec Recap.Spec

/-! ## Meaning -/

/-- A file with references between messages, a oneof, a map and an enum. -/
def exRead : List Elem := [.package "p",
  .message "A" [.field (.str "x") 7 "int32" (some .required), .field (.str "b") 2 "B" .none,
    .mapField (.str "m") 3 "string" "E", .enum "E" [(.str "U", 0), (.str "V", 1)]],
  .message "B" [.field (.str "a") 1 "A" (some .repeated),
    .oneof (.str "o") [.field (.str "i") 2 "sint64" .none, .field (.str "next") 3 "B" .none]]]

/-- What it is read as. -/
def exReadA (r : Registry) : RType := .struct [
  .int (.int 32) (.bool true) { extra := [("name", .str "x")] },
  .union [.null {}, .struct [
      .union [.null {}, .list (.proxy (some r) { alias := .str "p.A" }) .none (.bool true) {}]
        { extra := [("default", .none), ("name", .str "a")] },
      .union [.null {}, .int (.int 64) (.bool true) { extra := [("name", .str "i")] },
          .proxy (some r) { alias := .str "p.B", extra := [("name", .str "next")] }]
        { extra := [("name", .str "o"), ("default", .none)] }] { alias := .str "p.B" }]
    { extra := [("default", .none), ("name", .str "b")] },
  .union [.null {}, .map (.string (.int 2147483648) (.bool true) {})
      (.enum (.list [.str "U", .str "V"]) { alias := .str "p.E" }) {}]
    { extra := [("default", .none), ("name", .str "m")] }] { alias := .str "p.A" }

theorem exRead_ok : ∃ r c, toRecap (newConverter "_root") exRead = .ok (exReadA r, c) := ⟨_, _, rfl⟩

/-- **C99** What is read from a file is a struct for its first message, named after its package, with a
field for each of the fields, map fields and oneofs in the message, in their order: under the same name, with
the type that Protobuf means, optional unless it is required, a list if it is repeated, a union for a
oneof.  The same holds for each message that is expanded in it, from this file or from those that the same
converter has read before. -/
theorem C99_meaning {c c' : Converter} {D : Decls} {file : List Elem} {ns : String} {t : RType} (hc : Has_read c D)
    (hns : (packageOf file).or c.namespaces.getLast? = some ns) (h : toRecap c file = .ok (t, c')) :
    ∃ name es fs, firstMessage file = some (name, es) ∧ t = .struct fs { alias := .str (ns ++ "." ++ name) } ∧
      Fields (fun s n e => D s n e ∨ decls ns file s n e) ns es fs :=
  (toRecap_fields h (goodReg_mono (fun _ _ _ h => .inl h) _ (has_read_good hc)) hns (fun _ _ _ h => .inr h)).2

example : Has_read (newConverter "_root") (fun _ _ _ => False) ∧
    (packageOf exRead).or (newConverter "_root").namespaces.getLast? = some "p" ∧
    ∃ r c, toRecap (newConverter "_root") exRead = .ok (exReadA r, c) := ⟨.new, rfl, exRead_ok⟩

/-- **C99, the package** The package of a file is the one in its first package statement. -/
theorem C99_package (file : List Elem) (p : String) : packageOf file = some p ↔
    ∃ before after, file = before ++ .package p :: after ∧ ∀ q, .package q ∉ before := by
  induction file with
  | nil => simp [packageOf]
  | cons e file ih =>
    by_cases he : ∃ q, e = .package q
    · obtain ⟨q, rfl⟩ := he
      simp only [packageOf, Option.some.injEq]
      constructor
      · rintro rfl
        exact ⟨[], file, rfl, by simp⟩
      · rintro ⟨before, after, h1, h2⟩
        cases before with
        | nil => cases h1; rfl
        | cons x before => cases h1; exact absurd List.mem_cons_self (h2 q)
    · have : packageOf (e :: file) = packageOf file := by
        cases e <;> first | rfl | exact absurd ⟨_, rfl⟩ he
      rw [this, ih]
      constructor
      · rintro ⟨before, after, rfl, h⟩
        refine ⟨e :: before, after, rfl, fun q hq => ?_⟩
        rcases List.mem_cons.mp hq with h1 | h1
        · exact he ⟨q, h1.symm⟩
        · exact h q h1
      · rintro ⟨before, after, h1, h2⟩
        cases before with
        | nil => cases h1; exact absurd ⟨_, rfl⟩ he
        | cons x before =>
          cases h1
          exact ⟨before, after, rfl, fun q hq => h2 q (List.mem_cons_of_mem _ hq)⟩

/-! ## References -/

theorem first_within {file : List Elem} {name : String} {es : List Elem} (h : firstMessage file = some (name, es)) :
    .message name es ∈ file := by
  induction file with
  | nil => cases h
  | cons e file ih =>
    cases e
    case message => simp only [firstMessage, Option.some.injEq, Prod.mk.injEq] at h; simp [h]
    all_goals
      simp only [firstMessage] at h
      exact List.mem_cons_of_mem _ (ih h)

/-- What is read has the aliases of declarations. -/
theorem toRecap_named {c c' : Converter} {D : Decls} {file : List Elem} {ns : String} {t : RType} (hc : Has_read c D)
    (hns : (packageOf file).or c.namespaces.getLast? = some ns) (h : toRecap c file = .ok (t, c')) :
    Named (fun s n e => D s n e ∨ decls ns file s n e) t := by
  obtain ⟨name, es, fs, h1, rfl, h2⟩ := C99_meaning hc hns h
  intro u hs
  cases hs with
  | refl =>
    refine ⟨by simp, fun _ z hz => ?_⟩
    simp only [RType.attrs, PyVal.str.injEq] at hz
    exact ⟨.inl ⟨_, _, rfl⟩, ns, .message name es, .inr ⟨rfl, .here (first_within h1), name, rfl, hz.symm⟩⟩
  | field hm hs => exact Fields.named h2 _ hm u hs

/-- **C109, first half** Each reference that is left in what is read is to a struct or enum that is in it.
What is missing: that the reference can be resolved. -/
theorem C109_inside_partial {c c' : Converter} {D : Decls} {file : List Elem} {t : RType} (hc : Has_read c D)
    (h : toRecap c file = .ok (t, c')) {r : Option (List (String × RType))} {a : Attrs} (hs : Sub (.proxy r a) t) :
    ∃ u s, Sub u t ∧ a.alias = .str s ∧ u.attrs.alias = .str s ∧
      ((∃ fs b, u = .struct fs b) ∨ ∃ symbols b, u = .enum symbols b) := by
  obtain ⟨root, ns, hns, -⟩ := toRecap_ok h
  have hn := toRecap_named hc hns h
  obtain ⟨u, h1, h2, h3⟩ := toRecap_left hc h hs
  obtain ⟨z, hz⟩ := (hn _ hs).1 r a rfl
  rw [hz] at h3
  exact ⟨u, z, h1, hz, h3, ((hn u h1).2 h2 z h3).1⟩

example (r : Registry) : Sub (.proxy (some r) { alias := .str "p.A" }) (exReadA r) := by
  unfold exReadA
  refine .field (List.mem_cons_of_mem _ List.mem_cons_self) (.member (List.mem_cons_of_mem _ List.mem_cons_self) ?_)
  exact .field List.mem_cons_self (.member (List.mem_cons_of_mem _ List.mem_cons_self) (.list .refl))

/-- **C109 is false**: a reference of a message to itself that is left in what is read cannot be resolved. -/
theorem C109_resolved_refuted : ∃ file t c r a, toRecap (newConverter "_root") file = .ok (t, c) ∧
    Sub (.proxy r a) t ∧ resolve c.registry r a = .error .typeError :=
  ⟨[.message "A" [.field (.str "b") 1 "B" (some .required)], .message "B" [.field (.str "next") 1 "B" (some .required)]],
    _, _, some (newRegistry ++ [("_root.A", .struct [.proxy (some newRegistry)
      { alias := .str "_root.B", extra := [("name", .str "b")] }] {})]),
    { alias := .str "_root.B", extra := [("name", .str "next")] }, rfl,
    .field List.mem_cons_self (.field List.mem_cons_self .refl), rfl⟩

/-! ## Declarations -/

theorem Reads.type {D : Decls} {ns s : String} {x : Dict} {t : RType} (h : Reads D ns s x t) (hs : Spec.scalar s = .none) :
    (∃ r, t = .proxy r { alias := .str (full ns s), extra := x }) ∨ ∃ n e, D (full ns s) n e := by
  cases h with
  | scalar h => rw [hs] at h; cases h
  | reference => exact .inl ⟨_, rfl⟩
  | message _ h => exact .inr ⟨_, _, h⟩
  | enum _ h => exact .inr ⟨_, _, h⟩

theorem Members.mem {D : Decls} {ns : String} {name : PyVal} {k : Int} {s : String} {card : Option Card} {es : List Elem}
    (hm : .field name k s card ∈ es) :
    ∀ {ts : List RType}, Members D ns es ts → ∃ t ∈ ts, Reads D ns s [("name", name)] t := by
  induction es with
  | nil => simp at hm
  | cons x es ih =>
    intro ts h
    cases h with
    | field h1 h2 =>
      rcases List.mem_cons.mp hm with h | hm
      · cases h
        exact ⟨_, by simp, h1⟩
      · obtain ⟨f, hf, h3⟩ := ih hm h2
        exact ⟨f, by simp [hf], h3⟩
    | skip h1 h2 =>
      rcases List.mem_cons.mp hm with h | hm
      · exact absurd h.symm (h1 _ _ _ _)
      · exact ih hm h2

/-- A type that is referred to is read as something. -/
theorem Fields.refers {D : Decls} {ns s : String} {es : List Elem} {fs : List RType} (h : Fields D ns es fs)
    (hr : RefersTo es s) (hn : s ≠ "google.protobuf.NullValue") : ∃ f ∈ fs, ∃ x t, Sub t f ∧ Reads D ns s x t := by
  cases hr with
  | field hm =>
    obtain ⟨f, hf, h1⟩ := Fields.mem hm (by simp [label]) h
    refine ⟨f, hf, ?_⟩
    cases h1 with
    | required h1 => exact ⟨_, _, .refl, h1⟩
    | optional _ _ h1 => exact ⟨_, _, .member (List.mem_cons_of_mem _ List.mem_cons_self) .refl, h1⟩
    | null => exact absurd rfl hn
    | repeated h1 => exact ⟨_, _, .member (List.mem_cons_of_mem _ List.mem_cons_self) (.list .refl), h1⟩
  | value hm =>
    obtain ⟨f, hf, h1⟩ := Fields.mem hm (by simp [label]) h
    refine ⟨f, hf, ?_⟩
    cases h1 with
    | map _ _ h1 => exact ⟨_, _, .member (List.mem_cons_of_mem _ List.mem_cons_self) (.value .refl), h1⟩
  | member hm hx =>
    obtain ⟨f, hf, h1⟩ := Fields.mem hm (by simp [label]) h
    refine ⟨f, hf, ?_⟩
    cases h1 with
    | oneof h1 =>
      obtain ⟨t, ht, h2⟩ := Members.mem hx h1
      exact ⟨_, _, .member (List.mem_cons_of_mem _ ht) .refl, h2⟩

/-- **C110** A file whose first message refers to a message or an enum that neither the file nor one that
the converter has read before declares is refused. -/
theorem C110_declared {c c' : Converter} {D : Decls} {file : List Elem} {ns : String} {t : RType} (hc : Has_read c D)
    (hns : (packageOf file).or c.namespaces.getLast? = some ns) (h : toRecap c file = .ok (t, c'))
    {name s : String} {es : List Elem} (hf : firstMessage file = some (name, es)) (hs : RefersTo es s)
    (hn : Spec.scalar s = .none) : ∃ n e, D (full ns s) n e ∨ decls ns file (full ns s) n e := by
  obtain ⟨name', es', fs, h1, h2, h3⟩ := C99_meaning hc hns h
  rw [hf] at h1
  cases h1
  have hne : s ≠ "google.protobuf.NullValue" := by
    rintro rfl
    exact absurd hn (by decide +kernel)
  obtain ⟨f, hf, x, u, h4, h5⟩ := Fields.refers h3 hs hne
  rcases Reads.type h5 hn with ⟨r, rfl⟩ | h6
  · have hsub : Sub (.proxy r { alias := .str (full ns s), extra := x }) t := by rw [h2]; exact .field hf h4
    obtain ⟨v, h7, h8, h9⟩ := toRecap_left hc h hsub
    exact ((toRecap_named hc hns h v h7).2 h8 _ h9).2
  · exact h6

example : firstMessage exRead = some ("A", [.field (.str "x") 7 "int32" (some .required), .field (.str "b") 2 "B" .none,
    .mapField (.str "m") 3 "string" "E", .enum "E" [(.str "U", 0), (.str "V", 1)]]) ∧
    RefersTo [.field (.str "x") 7 "int32" (some .required), .field (.str "b") 2 "B" .none,
      .mapField (.str "m") 3 "string" "E", .enum "E" [(.str "U", 0), (.str "V", 1)]] "B" ∧
    Spec.scalar "B" = .none := ⟨rfl, .field (List.mem_cons_of_mem _ List.mem_cons_self), by decide +kernel⟩

/-- **C111 is false**: a file whose first message refers to a message or an enum by its full name with a
leading dot, as Protobuf allows, is never read. -/
theorem C111_absolute_refuted {c : Converter} {D : Decls} {file : List Elem} (hc : Has_read c D)
    {name s : String} {es : List Elem} (hf : firstMessage file = some (name, es)) (hs : RefersTo es ("." ++ s))
    (r : RType × Converter) : toRecap c file ≠ .ok r := by
  obtain ⟨t, c'⟩ := r
  intro h
  obtain ⟨root, ns, hns, -⟩ := toRecap_ok h
  have hn : Spec.scalar ("." ++ s) = .none := by
    cases hq : Spec.scalar ("." ++ s) with
    | none => rfl
    | some u =>
      have : ("." ++ s).toList.head? ≠ some '.' :=
        scalar_cases (P := fun s _ => s.toList.head? ≠ some '.') hq (by decide +kernel)
      simp at this
  obtain ⟨n, e, hd⟩ := C110_declared hc hns h hf hs hn
  have h1 : full ns ("." ++ s) = "." ++ s := by simp [full]
  have h2 := has_read_alias (.read hc hns h) hd
  rw [h1, aliasOk_iff] at h2
  obtain ⟨parts, h3, h4, h5⟩ := h2
  match parts, h3 with
  | a :: b :: rest, _ =>
    obtain ⟨x, xs, rfl, hx, -⟩ := h4 a (by simp)
    have h6 : '.' = x := by
      have := congrArg List.head? h5
      simpa [List.intercalate, List.intersperse] using this
    subst h6
    simp [Letter] at hx

/-! ## Names -/

/-- **C107 is false**: a file in which two messages or enums have the same name is never read, even if they
are nested in different messages. -/
theorem C107_scopes_refuted {c : Converter} {file : List Elem} (h : ¬ ((innerAll file).filterMap Spec.nameOf).Nodup)
    (r : RType × Converter) : toRecap c file ≠ .ok r := by
  obtain ⟨t, c'⟩ := r
  intro hr
  obtain ⟨root, ns, -, h1, -⟩ := toRecap_ok hr
  have h2 := (parseTop_adds h1).1
  exact h ((List.pairwise_map.mp h2).imp fun hab h => hab (by rw [h]))

example : ¬ ((innerAll [.message "A" [.enum "Kind" [(.str "X", 0)]], .message "B" [.enum "Kind" [(.str "Y", 0)]]]).filterMap
    Spec.nameOf).Nodup := by decide

/-- **C107 is false**: a reference to a nested message by its name in the message around it is refused. -/
theorem C107_dotted_refuted : toRecap (newConverter "_root") [.package "p",
    .message "A" [.message "I" [], .field (.str "i") 1 "A.I" (some .required)]] = .error .typeError := rfl

/-! ## Using a converter again -/

/-- **C102, for files with packages** The namespaces of the converter are the same after such a file. -/
theorem C102_packages_partial {c c' : Converter} {file : List Elem} {p : String} {t : RType}
    (h : toRecap c file = .ok (t, c')) (hp : packageOf file = some p) : c'.namespaces = c.namespaces := by
  obtain ⟨root, ns, -, -, h1, -⟩ := toRecap_ok h
  rw [h1, entered, hp]
  simp

example : ∃ r, toRecap (newConverter "_root") exRead = .ok r ∧ packageOf exRead = some "p" := ⟨_, rfl, rfl⟩

/-- **C102 is false**: once a new converter has read a file without a package, no other file without a
package can be read. -/
theorem C102_again_refuted {c : Converter} {ns : String} {first second : List Elem} {t : RType}
    (h : toRecap (newConverter ns) first = .ok (t, c)) (h1 : packageOf first = .none) (h2 : packageOf second = .none)
    (r : RType × Converter) : toRecap c second ≠ .ok r := by
  obtain ⟨t', c'⟩ := r
  intro hr
  obtain ⟨root, ns, -, -, h3, -⟩ := toRecap_ok h
  rw [entered, h1] at h3
  obtain ⟨root', ns', h4, -⟩ := toRecap_ok hr
  rw [h2, h3] at h4
  simp [newConverter] at h4

example : ∃ r, toRecap (newConverter "_root") [.message "A" [.field (.str "x") 1 "int32" .none]] = .ok r ∧
    packageOf [.message "A" [.field (.str "x") 1 "int32" .none]] = .none := ⟨_, rfl, rfl⟩

/-! ## Order -/

mutual
theorem inner_named' : ∀ (x : Elem) {e : Elem}, e ∈ inner x → ∃ n, Spec.nameOf e = some n
  | .message n es, e, h => by
    rw [inner, List.mem_append] at h
    rcases h with h | h
    · exact inner_named es h
    · simp at h; subst h; exact ⟨_, rfl⟩
  | .enum n vs, e, h => by simp [inner] at h; subst h; exact ⟨_, rfl⟩
  | .field .., e, h => by simp [inner] at h
  | .mapField .., e, h => by simp [inner] at h
  | .oneof .., e, h => by simp [inner] at h
  | .package _, e, h => by simp [inner] at h
  | .other, e, h => by simp [inner] at h
theorem inner_named : ∀ (es : List Elem) {e : Elem}, e ∈ innerAll es → ∃ n, Spec.nameOf e = some n
  | [], e, h => by simp [innerAll] at h
  | x :: es, e, h => by
    rw [innerAll, List.mem_append] at h
    rcases h with h | h
    · exact inner_named' x h
    · exact inner_named es h
end


/-- **C66, where references go backwards** A file is read if its messages and enums have different names that
can be aliases, the keys of its maps are integers or strings, its first message refers only to what the file
declares, and each other message refers only to itself, to the first message and to what is declared before
it; what is nested in a message is declared before it. -/
theorem C66_order_partial {ns₀ ns root : String} {file es : List Elem}
    (hns : (packageOf file).getD ns₀ = ns) (hroot : firstMessage file = some (root, es))
    (hnames : ((innerAll file).filterMap Spec.nameOf).Nodup)
    (halias : ∀ s ∈ fulls ns (innerAll file), FullyQualified s)
    (hkeys : ∀ n xs name k key value, .message n xs ∈ innerAll file → .mapField name k key value ∈ xs →
      ∃ t, Spec.scalar key = some t ∧ Key t)
    (hfirst : ∀ s ∈ typesAll es, Spec.scalar s = .none → full ns s ∈ fulls ns (innerAll file))
    (hrefs : ∀ l n xs r, innerAll file = l ++ .message n xs :: r → n ≠ root → ∀ s ∈ typesAll xs,
      Spec.scalar s = .none → full ns s = ns ++ "." ++ root ∨ full ns s = ns ++ "." ++ n ∨ full ns s ∈ fulls ns l) :
    ∃ t c, toRecap (newConverter ns₀) file = .ok (t, c) := by
  have hinj : ∀ a b : String, ns ++ "." ++ a = ns ++ "." ++ b → a = b := by
    intro a b h
    have := congrArg String.toList h
    simp at this
    exact String.toList_inj.mp this
  refine toRecap_ready (c := newConverter ns₀) (ns := ns) ?_ hroot (okReg_new _) sealed_newRegistry ?_ ?_
  · cases hp : packageOf file with
    | none => rw [hp] at hns; simpa [newConverter] using hns
    | some p => rw [hp] at hns; simpa using hns
  · refine ready_of fun l e r hl => ?_
    obtain ⟨n, hn⟩ : ∃ n, Spec.nameOf e = some n := inner_named _ (by rw [hl]; simp)
    refine ⟨n, hn, ?_, ?_, ?_⟩
    · intro hm
      rcases List.mem_append.mp hm with hm | hm
      · exact absurd (show '.' ∈ (ns ++ "." ++ n).toList by simp) (by
          have : ∀ s ∈ Spec.names newRegistry, '.' ∉ s.toList := by decide +kernel
          exact this _ hm)
      · rw [hl, List.filterMap_append, List.nodup_append] at hnames
        obtain ⟨m, hm1, hm2⟩ := List.mem_map.mp hm
        exact hnames.2.2 m hm1 n (by simp [hn]) (hinj _ _ hm2)
    · exact (aliasOk_iff _).mpr (halias _ (mem_fulls hn (by rw [hl]; simp)))
    · rintro es' rfl
      cases hn
      refine ⟨fun name k key value h => hkeys n es' _ _ _ _ (by rw [hl]; simp) h, ?_⟩
      rintro hne s ⟨ty, h1, h2, rfl⟩
      rcases hrefs l n es' r hl hne ty h1 h2 with h | h | h
      · exact .inl h
      · exact .inr (.inl h)
      · exact .inr (.inr (List.mem_append.mpr (.inr h)))
  · rintro s ⟨ty, h1, h2, rfl⟩
    exact .inr (hfirst ty h1 h2)

/-- The messages of `exOrder`: the second refers to the first, to itself, to the enum nested in it and to the
one before it. -/
def exOrder : List Elem := [.package "p",
  .message "A" [.field (.str "b") 1 "B" .none, .field (.str "c") 2 "C" .none],
  .message "C" [.field (.str "x") 1 "int32" .none],
  .message "B" [.field (.str "a") 1 "A" .none, .field (.str "next") 2 "B" .none, .field (.str "c") 3 "C" .none,
    .enum "E" [(.str "U", 0)], .mapField (.str "m") 4 "string" "E"]]

example : (packageOf exOrder).getD "_root" = "p" ∧
    firstMessage exOrder = some ("A", [.field (.str "b") 1 "B" .none, .field (.str "c") 2 "C" .none]) ∧
    ((innerAll exOrder).filterMap Spec.nameOf).Nodup ∧
    (∀ s ∈ fulls "p" (innerAll exOrder), FullyQualified s) ∧
    (∀ n xs name k key value, .message n xs ∈ innerAll exOrder → .mapField name k key value ∈ xs →
      ∃ t, Spec.scalar key = some t ∧ Key t) ∧
    (∀ s ∈ typesAll [.field (.str "b") 1 "B" .none, .field (.str "c") 2 "C" .none], Spec.scalar s = .none →
      full "p" s ∈ fulls "p" (innerAll exOrder)) ∧
    (∀ l n xs r, innerAll exOrder = l ++ .message n xs :: r → n ≠ "A" → ∀ s ∈ typesAll xs,
      Spec.scalar s = .none → full "p" s = "p" ++ "." ++ "A" ∨ full "p" s = "p" ++ "." ++ n ∨ full "p" s ∈ fulls "p" l) := by
  refine ⟨rfl, rfl, by decide, ?_, ?_, by decide +kernel, ?_⟩
  · intro s hs
    rw [← aliasOk_iff]
    revert s
    decide +kernel
  · intro n xs name k key value h1 h2
    simp only [exOrder, innerAll, inner, List.nil_append, List.append_nil, List.cons_append, List.mem_cons,
      List.not_mem_nil, or_false, Elem.message.injEq, reduceCtorEq, false_or] at h1
    rcases h1 with ⟨rfl, rfl⟩ | ⟨rfl, rfl⟩ | ⟨rfl, rfl⟩
    · simp at h2
    · simp at h2
    · simp at h2
      obtain ⟨rfl, rfl, rfl, rfl⟩ := h2
      exact ⟨_, rfl, trivial⟩
  · intro l n xs r h hn
    simp only [exOrder, innerAll, inner, List.nil_append, List.append_nil, List.cons_append] at h
    match l with
    | [] =>
      simp at h
      exact absurd h.1.1.symm hn
    | [a] =>
      simp at h
      obtain ⟨rfl, ⟨rfl, rfl⟩, -⟩ := h
      decide +kernel
    | [a, b] => simp at h
    | [a, b, c] =>
      simp at h
      obtain ⟨rfl, rfl, rfl, ⟨rfl, rfl⟩, -⟩ := h
      decide +kernel
    | a :: b :: c :: d :: l => simp at h

/-- **C66 is false**: a message that refers to one that is declared after it cannot be read, unless it is the
first. -/
theorem C66_forward_refuted :
    toRecap (newConverter "_root") [.message "A" [.field (.str "b") 1 "B" .none],
      .message "B" [.field (.str "c") 1 "C" .none], .message "C" [.field (.str "x") 1 "int32" .none]] = .error .typeError ∧
    ∃ r, toRecap (newConverter "_root") [.message "A" [.field (.str "b") 1 "B" .none],
      .message "C" [.field (.str "x") 1 "int32" .none], .message "B" [.field (.str "c") 1 "C" .none]] = .ok r :=
  ⟨rfl, _, rfl⟩

end Recap.Protobuf
