import Verif.EndToEndAvroSpec
import Verif.EndToEndFileThms
import Verif.AvroKeptThms

/-!
# C154 for files: what is printed for the path of an Avro schema has the same data as the file

The specification is in `EndToEndAvroSpec.lean`.
-/

set_option autoImplicit false

namespace Recap.EndToEnd

open Recap.Url Recap.Url.Spec Recap.Clients Recap.Clients.Spec Recap.Commands Recap.Commands.Spec
open Recap.JsonText Recap.JsonText.Spec Recap.Spec
open Recap.AvroData (DatumOf Steady C154_same_partial C154_written_partial)
open Recap.AvroWrite (Whole)
open Recap.Files (place)

/-! ## What is read has values of Python -/

/-- The keys that the converter copies. -/
def Copied (e : Dict) : Prop := RealDict e ∧ ∀ k ∈ Dict.keys e, k = "doc" ∨ k = "name" ∨ k = "default"

theorem header_real {d e : Dict} {ns q : Option String} {alias : PyVal} (hd : RealDict d)
    (h : Avro.header d ns = .ok (q, alias, e)) : Real alias ∧ Copied e := by
  have one : ∀ n : Dict, (n = [] ∨ ∃ s, n = [("name", PyVal.str s)]) →
      Copied (Avro.copied d "doc" ++ (n ++ Avro.copied d "default")) := by
    intro n hn
    unfold Avro.copied
    cases h1 : Dict.get? d "doc" <;> cases h2 : Dict.get? d "default" <;> rcases hn with rfl | ⟨s, rfl⟩ <;>
      refine ⟨realDict_iff.mpr ⟨by simp [Dict.keys], ?_⟩, by simp [Dict.keys]⟩ <;>
      simp only [List.nil_append, List.append_nil, List.cons_append, List.mem_cons, List.not_mem_nil, or_false] <;>
      (intro kv hkv; first | cases hkv; done | skip) <;>
      first
        | (rcases hkv with rfl | rfl | rfl <;> first | exact hd.get? h1 | exact hd.get? h2 | trivial)
        | (rcases hkv with rfl | rfl <;> first | exact hd.get? h1 | exact hd.get? h2 | trivial)
        | (subst hkv; first | exact hd.get? h1 | exact hd.get? h2 | trivial)
  unfold Avro.header at h
  obtain ⟨ns', -, h⟩ := ok_bind h
  split at h
  · cases h; exact ⟨trivial, one [] (.inl rfl)⟩
  · cases h; exact ⟨trivial, one [_] (.inr ⟨_, rfl⟩)⟩
  · cases h
  · cases h
  · cases h

theorem avro_attrs {e : Dict} (he : Copied e) {alias logical : PyVal} {own : Dict} (h1 : Real alias) (h2 : Real logical)
    (h3 : RealDict own) (h4 : "name" ∉ Dict.keys own ∧ "default" ∉ Dict.keys own) :
    Real (Avro.attrsOf e alias logical own).logical ∧ Real (Avro.attrsOf e alias logical own).alias ∧
      Real (Avro.attrsOf e alias logical own).doc ∧ RealDict (Avro.attrsOf e alias logical own).extra := by
  refine ⟨h2, h1, he.1.getD trivial, ?_⟩
  have hf := realDict_iff.mp (he.1.filter (fun kv => kv.1 ≠ "doc"))
  have ho := realDict_iff.mp h3
  refine realDict_iff.mpr ⟨?_, fun kv hkv => (List.mem_append.mp hkv).elim (ho.2 kv) (hf.2 kv)⟩
  simp only [Avro.attrsOf, Dict.keys, List.map_append] at ho hf ⊢
  rw [List.nodup_append]
  refine ⟨ho.1, hf.1, ?_⟩
  rintro x hx y hy rfl
  obtain ⟨kv, hkv, rfl⟩ := List.mem_map.mp hy
  obtain ⟨hk, hne⟩ := List.mem_filter.mp hkv
  rcases he.2 kv.1 (List.mem_map.mpr ⟨kv, hk, rfl⟩) with g | g | g
  · simp [g] at hne
  · exact h4.1 (g ▸ hx)
  · exact h4.2 (g ▸ hx)

theorem avro_plain {e : Dict} (he : Copied e) {alias : PyVal} (h1 : Real alias) :
    Real (Avro.attrsOf e alias).logical ∧ Real (Avro.attrsOf e alias).alias ∧ Real (Avro.attrsOf e alias).doc ∧
      RealDict (Avro.attrsOf e alias).extra :=
  avro_attrs he h1 trivial real_nil (by simp [Dict.keys])

theorem logical_real {l : PyVal} {d e : Dict} {t : RType} (hd : RealDict d) (he : Copied e)
    (h : Avro.parseLogical l d e = .ok t) : RealType t := by
  have hi : ∀ n : Int, Real (.int n) := fun _ => trivial
  unfold Avro.parseLogical at h
  repeat' split at h
  all_goals first
    | cases h; done
    | skip
  · rename_i hp
    cases h
    refine realType_leaf (avro_attrs he trivial trivial (real_two (by decide) (hd.get? hp) (hd.getD trivial))
      (by simp [Dict.keys])) ?_ (by simp [children])
    simp only [Spec.params, List.mem_cons, List.not_mem_nil, or_false, forall_eq_or_imp, forall_eq]
    exact ⟨hd.getD trivial, trivial⟩
  · cases h
    exact realType_leaf (avro_attrs he trivial trivial real_nil (by simp [Dict.keys])) (by simp [Spec.params, Real]) (by simp [children])
  all_goals
    cases h
    first
      | exact realType_leaf (avro_attrs he trivial trivial (real_one trivial) (by simp [Dict.keys]))
          (by simp [Spec.params, Real]) (by simp [children])
      | exact realType_leaf (avro_attrs he trivial trivial (real_two (by decide) trivial trivial) (by simp [Dict.keys]))
          (by simp [Spec.params, Real]) (by simp [children])

theorem registered_ok {t u : RType} {reg reg' : Registry} (h : Avro.registered t reg = .ok (u, reg')) : u = t := by
  unfold Avro.registered at h
  split at h
  · cases h; rfl
  · obtain ⟨r, -, h⟩ := ok_bind h
    cases h; rfl

theorem parseAll_real {f : PyVal → Option String → Registry → Except PyErr (RType × Registry)} {ns : Option String} :
    ∀ {xs : List PyVal} {reg reg' : Registry} {ts : List RType},
    (∀ x ∈ xs, ∀ ns reg t reg', f x ns reg = .ok (t, reg') → RealType t) →
    Avro.parseAll f ns xs reg = .ok (ts, reg') → ∀ t ∈ ts, RealType t
  | [], _, _, _, _, h => by cases h; simp
  | x :: xs, reg, reg', ts, hf, h => by
    simp only [Avro.parseAll] at h
    obtain ⟨⟨t, r⟩, h1, h⟩ := ok_bind h
    obtain ⟨⟨ts', r'⟩, h2, h⟩ := ok_bind h
    cases h
    intro u hu
    rcases List.mem_cons.mp hu with rfl | hu
    · exact hf x (by simp) _ _ _ _ h1
    · exact parseAll_real (fun y hy => hf y (by simp [hy])) h2 u hu

theorem primitive_real {s : String} {a : Attrs} {t : RType}
    (ha : Real a.logical ∧ Real a.alias ∧ Real a.doc ∧ RealDict a.extra) (h : Avro.primitive s a = some t) : RealType t := by
  unfold Avro.primitive at h
  repeat' split at h
  all_goals first
    | cases h; done
    | cases h; exact realType_leaf ha (by simp [Spec.params, Real]) (by simp [children])

theorem reference_real {ns : Option String} {e : Dict} {s : String} (he : Copied e) : RealType (Avro.reference ns e s) :=
  realType_leaf (avro_plain he trivial) (by simp [Spec.params, Avro.reference]) (by simp [children, Avro.reference])

theorem complex_real {f : PyVal → Option String → Registry → Except PyErr (RType × Registry)}
    (hf : ∀ v ns reg t reg', Real v → f v ns reg = .ok (t, reg') → RealType t) {ns : Option String} {alias : PyVal} {e d : Dict}
    {s : String} {reg reg' : Registry} {t : RType} (hd : RealDict d) (he : Copied e) (ha : Real alias)
    (h : Avro.parseComplex f ns alias e d s reg = .ok (t, reg')) : RealType t := by
  have hat := avro_plain he ha
  have hr : ∀ {s}, (.ok (Avro.reference ns e s, reg) : Except PyErr (RType × Registry)) = .ok (t, reg') → RealType t := by
    intro s h; cases h; exact reference_real he
  have many : ∀ {v : PyVal} {xs : List PyVal} {ts : List RType} {r : Registry}, Real v → v.iter = .ok xs →
      Avro.parseAll f ns xs reg = .ok (ts, r) → ∀ t ∈ ts, RealType t := fun hv hi hp =>
    parseAll_real (fun x hx ns reg t reg' h => hf x ns reg t reg' (real_iter hv hi x hx) h) hp
  unfold Avro.parseComplex at h
  simp only at h
  split at h
  · split at h
    · rename_i v hv
      split at h
      · split at h
        · cases registered_ok h
          refine realType_leaf hat ?_ (by simp [children])
          simp only [Spec.params, List.mem_cons, List.not_mem_nil, or_false, forall_eq_or_imp, forall_eq]
          exact ⟨hd.get? hv, trivial⟩
        · exact hr h
      · exact hr h
    · exact hr h
  split at h
  · split at h
    · rename_i v hv
      obtain ⟨xs, h1, h⟩ := ok_bind h
      obtain ⟨⟨ts, r⟩, h2, h⟩ := ok_bind h
      cases registered_ok h
      exact realType_leaf hat (by simp [Spec.params]) (many (hd.get? hv) h1 h2)
    · exact hr h
  split at h
  · split at h
    · rename_i v hv
      cases registered_ok h
      refine realType_leaf hat ?_ (by simp [children])
      simp only [Spec.params, List.mem_cons, List.not_mem_nil, or_false, forall_eq]
      exact hd.get? hv
    · exact hr h
  split at h
  · split at h
    · rename_i v hv
      obtain ⟨⟨u, r⟩, h2, h⟩ := ok_bind h
      cases registered_ok h
      refine realType_leaf hat (by simp [Spec.params, Real]) ?_
      simp only [children, List.mem_singleton, forall_eq]
      exact hf _ _ _ _ _ (hd.get? hv) h2
    · exact hr h
  split at h
  · split at h
    · rename_i v hv
      obtain ⟨⟨u, r⟩, h2, h⟩ := ok_bind h
      cases registered_ok h
      refine realType_leaf hat (by simp [Spec.params]) ?_
      simp only [children, List.mem_cons, List.not_mem_nil, or_false, forall_eq_or_imp, forall_eq]
      exact ⟨realType_leaf ⟨trivial, trivial, trivial, real_nil⟩ (by simp [Spec.params, Avro.stringKeys, Real])
        (by simp [children, Avro.stringKeys]), hf _ _ _ _ _ (hd.get? hv) h2⟩
    · exact hr h
  split at h
  · split at h
    · rename_i v hv
      obtain ⟨xs, h1, h⟩ := ok_bind h
      obtain ⟨⟨ts, r⟩, h2, h⟩ := ok_bind h
      cases registered_ok h
      exact realType_leaf hat (by simp [Spec.params]) (many (hd.get? hv) h1 h2)
    · exact hr h
  · exact hr h

theorem dict_real {f : PyVal → Option String → Registry → Except PyErr (RType × Registry)}
    (hf : ∀ v ns reg t reg', Real v → f v ns reg = .ok (t, reg') → RealType t) {d : Dict} {ns : Option String}
    {reg reg' : Registry} {t : RType} (hd : RealDict d) (h : Avro.parseDict f d ns reg = .ok (t, reg')) : RealType t := by
  unfold Avro.parseDict at h
  obtain ⟨⟨q, alias, e⟩, h1, h⟩ := ok_bind h
  obtain ⟨ha, he⟩ := header_real hd h1
  simp only at h
  split at h
  · obtain ⟨u, h2, h⟩ := ok_bind h
    cases h
    exact logical_real hd he h2
  · unfold Avro.parseType at h
    split at h
    · split at h
      · rename_i hp
        cases registered_ok h
        exact primitive_real (avro_plain he ha) hp
      · exact complex_real hf hd he ha h
    · rename_i xs hx
      obtain ⟨⟨ts, r⟩, h2, h⟩ := ok_bind h
      cases registered_ok h
      exact realType_leaf (avro_plain he ha) (by simp [Spec.params])
        (parseAll_real (fun x hx' ns reg t reg' h => hf x ns reg t reg' (real_list.mp (hd.get? hx) x hx') h) h2)
    · rename_i d' hx
      obtain ⟨⟨u, r⟩, h2, h⟩ := ok_bind h
      cases h
      have hu := hf _ _ _ _ _ (hd.get? hx) h2
      obtain ⟨g1, g2, g3, g4⟩ := realType_attrs hu
      exact realType_with hu g1 g2 g3 (g4.update he.1)
    · cases h

/-- What is read of a value of Python is a type with values of Python. -/
theorem read_real : ∀ (n : Nat) (v : PyVal) (ns : Option String) (reg : Registry) (t : RType) (reg' : Registry), Real v →
    Avro.parseF n v ns reg = .ok (t, reg') → RealType t
  | 0, _, _, _, _, _, _, h => by cases h
  | n + 1, v, ns, reg, t, reg', hv, h => by
    have ih := fun v ns reg t reg' => read_real n v ns reg t reg'
    cases v with
    | str s => exact dict_real ih (real_one (v := .str s) trivial) h
    | dict d => exact dict_real ih hv h
    | list xs => simp only [Avro.parseF] at h; split at h <;> cases h
    | _ => cases h

/-! ## What is written has values of Python -/

theorem shorten_real {d : Dict} (h : RealDict d) : Real (Avro.shorten d) := by
  unfold Avro.shorten
  split
  · trivial
  · exact h

theorem avro_describe {a : Attrs} {d : Dict} (ha : Real a.logical ∧ Real a.alias ∧ Real a.doc ∧ RealDict a.extra)
    (h : Avro.describe a = .ok d) : RealDict d := by
  obtain ⟨-, h2, h3, h4⟩ := ha
  unfold Avro.describe at h
  obtain ⟨al, h1, h⟩ := ok_bind h
  cases h
  have hal : al = [] ∨ ∃ s, al = [("aliases", .list [.str s])] := by
    unfold Avro.aliasesOf at h1
    repeat' split at h1
    all_goals first
      | cases h1; done
      | cases h1; exact .inl rfl
      | cases h1; exact .inr ⟨_, rfl⟩
  have hdoc : Avro.docOf a = [] ∨ ∃ v, Real v ∧ Avro.docOf a = [("doc", v)] := by
    unfold Avro.docOf
    split
    · exact .inr ⟨_, h3, rfl⟩
    · exact .inl rfl
  have hname : Avro.nameOf a = [] ∨ ∃ v, Real v ∧ Avro.nameOf a = [("name", v)] := by
    unfold Avro.nameOf
    split
    · rename_i v hv
      split
      · exact .inr ⟨_, h4.get? hv, rfl⟩
      · exact .inl rfl
    · exact .inl rfl
  have hdef : Avro.copied a.extra "default" = [] ∨ ∃ v, Real v ∧ Avro.copied a.extra "default" = [("default", v)] := by
    unfold Avro.copied
    split
    · rename_i v hv
      exact .inr ⟨_, h4.get? hv, rfl⟩
    · exact .inl rfl
  rcases hdoc with g1 | ⟨v1, r1, g1⟩ <;> rcases hname with g2 | ⟨v2, r2, g2⟩ <;> rcases hdef with g3 | ⟨v3, r3, g3⟩ <;>
    rcases hal with rfl | ⟨s, rfl⟩ <;> rw [g1, g2, g3] <;>
    refine realDict_iff.mpr ⟨by simp [Dict.keys], ?_⟩ <;>
    simp_all [Real, RealAll]

theorem logicalSchema_real {t : RType} {d : Dict} (ht : RealType t) (h : Avro.logicalSchema t = .ok d) : RealDict d := by
  obtain ⟨-, -, -, he⟩ := realType_attrs ht
  unfold Avro.logicalSchema at h
  repeat' split at h
  all_goals first
    | cases h; done
    | cases h; exact real_two (by decide) trivial trivial
    | skip
  · cases h
    refine realDict_iff.mpr ⟨by simp [Dict.keys], ?_⟩
    simp only [List.mem_cons, List.not_mem_nil, or_false, forall_eq_or_imp, forall_eq]
    exact ⟨trivial, trivial, he.getD trivial, he.getD trivial⟩
  · cases h
    exact realDict_iff.mpr ⟨by simp [Dict.keys], by simp [Real]⟩
  · simp only at h
    repeat' split at h
    all_goals first
      | cases h; done
      | cases h; exact real_two (by decide) trivial trivial

theorem intSchema_real {bits : Int} {signed : Bool} {d : Dict} (h : Avro.intSchema bits signed = .ok d) : RealDict d := by
  unfold Avro.intSchema at h
  split at h
  · cases h; exact real_one trivial
  split at h
  · cases h; exact real_one trivial
  simp only at h
  generalize (Nat.toDigits 10 (2 ^ (bits - if signed = true then 1 else 0).toNat)).length = k at h
  split at h
  · cases h
  · cases h; exact realDict_iff.mpr ⟨by simp [Dict.keys], by simp [Real]⟩

theorem leafSchema_real {t : RType} {d : Dict} (ht : RealType t) (h : Avro.leafSchema t = .ok d) : RealDict d := by
  have hp : ∀ kv ∈ Spec.params t, Real kv.2 := (ht t .refl).2.2.2.2
  unfold Avro.leafSchema at h
  repeat' split at h
  all_goals first
    | exact intSchema_real h
    | cases h; done
    | cases h; exact real_one trivial
    | cases h; exact real_two (by decide) trivial (hp _ (by simp only [Spec.params]; exact List.mem_cons_self ..))

theorem avroAll_real {f : RType → Except PyErr PyVal} : ∀ {ts : List RType} {vs : List PyVal},
    (∀ t ∈ ts, ∀ v, f t = .ok v → Real v) → Avro.convertAll f ts = .ok vs → ∀ v ∈ vs, Real v
  | [], _, _, h => by cases h; simp
  | t :: ts, vs, hf, h => by
    simp only [Avro.convertAll] at h
    obtain ⟨v, h1, h⟩ := ok_bind h
    obtain ⟨vs', h2, h⟩ := ok_bind h
    cases h
    intro x hx
    rcases List.mem_cons.mp hx with rfl | hx
    · exact hf t (by simp) _ h1
    · exact avroAll_real (fun u hu => hf u (by simp [hu])) h2 x hx

theorem convertAvro_real {live : Registry} : ∀ (n : Nat) (t : RType) (v : PyVal), RealType t → Whole t →
    Avro.convertF live n t = .ok v → Real v
  | 0, _, _, _, _, h => by cases h
  | n + 1, t, v, ht, hw, h => by
    obtain ⟨hp, hc⟩ := (by cases hw; exact ⟨‹_›, ‹_›⟩ : (∀ r a, t ≠ .proxy r a) ∧ ∀ u ∈ children t, Whole u)
    have sub : ∀ u ∈ children t, ∀ v, Avro.convertF live n u = .ok v → Real v := fun u hu v hv =>
      convertAvro_real n u v ((realType_iff.mp ht).2 u hu) (hc u hu) hv
    unfold Avro.convertF at h
    obtain ⟨s, h1, h⟩ := ok_bind h
    have hs := avro_describe (realType_attrs ht) h1
    split at h
    · obtain ⟨d, h2, h⟩ := ok_bind h
      cases h
      exact shorten_real (hs.update (logicalSchema_real ht h2))
    · split at h
      · obtain ⟨vs, h2, h⟩ := ok_bind h
        cases h
        refine shorten_real (hs.update (real_two (by decide) trivial (real_list.mpr fun x hx => ?_)))
        obtain ⟨y, hy, rfl⟩ := List.mem_map.mp hx
        have := avroAll_real sub h2 y hy
        unfold Avro.fieldSchema
        split
        · exact real_one trivial
        · exact this
      · obtain ⟨w, h2, h⟩ := ok_bind h
        cases h
        exact shorten_real (hs.update (real_two (by decide) trivial (sub _ (by simp [children]) _ h2)))
      · split at h
        · obtain ⟨w, h2, h⟩ := ok_bind h
          cases h
          exact shorten_real (hs.update (real_two (by decide) trivial (sub _ (by simp [children]) _ h2)))
        · cases h
      · obtain ⟨vs, h2, h⟩ := ok_bind h
        cases h
        exact shorten_real (hs.update (real_one (real_list.mpr (avroAll_real sub h2))))
      · exact absurd rfl (hp _ _)
      · obtain ⟨d, h2, h⟩ := ok_bind h
        cases h
        exact shorten_real (hs.update (leafSchema_real ht h2))

theorem fromAvro_real {live : Registry} {t : RType} {d : Dict} (ht : RealType t) (hw : Whole t)
    (h : Avro.fromRecap live t = .ok d) : Real (.dict d) := by
  unfold Avro.fromRecap at h
  obtain ⟨v, h1, h⟩ := ok_bind h
  have := convertAvro_real _ _ _ ht hw h1
  split at h
  · cases h; exact this
  · cases h; exact real_one this

/-! ## From the path to the text -/

variable {F : Floats} {s : System} {confs : List Parts} {path : Chars} {files : Bool × List Chars → Option Str} {text : Str}
  {v : PyVal}

/-- **C154** for files: what `recap schema` prints as Avro for the path of an Avro schema is a JSON text of a schema that has
the same data as the one in that file, for schemas as in `C154_same_partial`. -/
theorem C154_file_partial (hF : Lawful F) (hb : BehindAvro F files s.world) (ho : AvroFile s confs path)
    (ht : files (place path) = some text) (hj : IsJson F v text) (hs : Steady .none v) {p : Printed}
    (h : recapSchema F s path .avro = .ok p) :
    ∃ out d, p = .text out ∧ IsJson F (.dict d) out ∧ (∀ w, IsJson F w out → w = .dict d) ∧
      ∀ x, DatumOf .none (.dict d) x ↔ DatumOf .none v x := by
  unfold recapSchema cliSchema at h
  obtain ⟨o, h1, h⟩ := ok_bind h
  cases h
  obtain ⟨c, kw, src, t, live, g1, g2, g3⟩ := schema_iff.mp h1
  obtain ⟨q, hq, hpl⟩ := Files.C153_paths_partial s.mysqlArgs confs path .avro ho.known ho.others ho.plain ho.format
  rw [ho.urls, hq] at g1
  simp only [Except.ok.injEq, Prod.mk.injEq] at g1
  obtain ⟨rfl, rfl, rfl⟩ := g1
  have hb := hb q text v (by rw [hpl]; exact ht) hj
  cases hr : Avro.toRecap v .none newRegistry with
  | error e =>
    rw [hr] at hb
    obtain ⟨e', hb⟩ := hb
    rw [hb] at g2
    cases g2
  | ok r =>
    obtain ⟨t', reg'⟩ := r
    rw [hr] at hb
    simp only at hb
    rw [hb] at g2
    cases g2
    have hp := AvroData.toRecap_parse hr
    cases g3 with
    | @avro d hd =>
      obtain ⟨b, body, b', -, hjs, -⟩ := hj
      have hreal := printed hF (fromAvro_real (read_real _ _ _ _ _ _ (real_json hF hjs) hp)
        (AvroData.steady_good hs _ _ _ _ hp).whole hd)
      exact ⟨_, _, rfl, hreal, fun w hw => C122_unambiguous hw hreal, C154_same_partial hs hr hd⟩

/-- **C154** for files: if the schema can be read, then something is printed. -/
theorem C154_file_printed_partial (hb : BehindAvro F files s.world) (ho : AvroFile s confs path)
    (ht : files (place path) = some text) (hj : IsJson F v text) (hs : Steady .none v) {t : RType} {reg : Registry}
    (hr : Avro.toRecap v .none newRegistry = .ok (t, reg)) : ∃ p, recapSchema F s path .avro = .ok p := by
  obtain ⟨q, hq, hpl⟩ := Files.C153_paths_partial s.mysqlArgs confs path .avro ho.known ho.others ho.plain ho.format
  have hb := hb q text v (by rw [hpl]; exact ht) hj
  rw [hr] at hb
  obtain ⟨d, hd⟩ := C154_written_partial hs hr reg
  have : Commands.schema s path .avro false = .ok (.dict d) :=
    schema_iff.mpr ⟨_, _, _, t, reg, by rw [ho.urls]; exact hq, hb, .avro hd⟩
  exact ⟨_, by simp only [recapSchema, cliSchema, this, bind, Except.bind, pure, Except.pure]; rfl⟩

/-! ## An example -/

/-- `{"type": "record", "name": "Tick", "fields": [{"name": "n", "type": "long"}, {"name": "note", "type": ["null",
"string"]}]}` -/
def tickDict : Dict :=
  [("type", .str "record"), ("name", .str "Tick"), ("fields", .list [
    .dict [("name", .str "n"), ("type", .str "long")],
    .dict [("name", .str "note"), ("type", .list [.str "null", .str "string"])]])]

/-- The file system has one file, `/data/tick.avsc`. -/
def tickFiles (F : Floats) (p : Bool × List Chars) : Option Str :=
  if p = (true, ["data".toList, "tick.avsc".toList]) then some (dumps F .pretty (.dict tickDict)) else .none

/-- The client reads this file. -/
def tickSystem (mysqlArgs : List String) : System where
  env := asciiEnv
  mysqlArgs := mysqlArgs
  urls := []
  world :=
    { children := fun _ _ _ => .error .valueError
      type := fun _ _ _ => Avro.toRecap (.dict tickDict) .none newRegistry }

theorem tick_steady : Steady .none (.dict tickDict) := by
  refine .record (q := some "_root") (.short (.inherited rfl) rfl (by decide)) ⟨rfl, rfl⟩ rfl
    (.cons (x := "n") rfl (by decide) rfl ⟨rfl, rfl⟩ (.cons (x := "note") rfl (by decide) rfl ⟨rfl, rfl⟩ .nil)) fun w hw => ?_
  simp only [List.mem_cons, List.not_mem_nil, or_false] at hw
  rcases hw with rfl | rfl
  · exact .fieldName ⟨.int 0, .long (by simp [Avro.Spec.IntValue])⟩
  · refine .union fun v hv => ?_
    simp only [List.mem_cons, List.not_mem_nil, or_false] at hv
    rcases hv with rfl | rfl
    · exact .name ⟨_, .null⟩
    · exact .name ⟨.str "", .string (by decide)⟩

/-- The hypotheses of C154 for files are met: a schema for ticks is printed. -/
example {F : Floats} (hF : Lawful F) (mysqlArgs : List String) :
    ∃ out d, recapSchema F (tickSystem mysqlArgs) "/data/tick.avsc".toList .avro = .ok (.text out) ∧ IsJson F (.dict d) out ∧
      ∀ x, DatumOf .none (.dict d) x ↔ DatumOf .none (.dict tickDict) x := by
  have hreal : Real (.dict tickDict) := by simp [tickDict, Real, RealPairs, RealAll]
  obtain ⟨⟨t, reg⟩, hr⟩ : ∃ r, Avro.toRecap (.dict tickDict) .none newRegistry = .ok r := ⟨_, rfl⟩
  have hb : BehindAvro F (tickFiles F) (tickSystem mysqlArgs).world := by
    intro path text v ht hv
    unfold tickFiles at ht
    split at ht
    · cases ht
      rw [C122_unambiguous hv (printed hF hreal), hr]
      exact hr
    · cases ht
  have ho : AvroFile (tickSystem mysqlArgs) [] "/data/tick.avsc".toList :=
    ⟨rfl, by simp, by simp, ⟨by decide, by decide, by decide⟩,
      ⟨["data".toList], "tick".toList, "avsc".toList, by decide, by decide, by decide, by decide⟩⟩
  have ht : tickFiles F (place "/data/tick.avsc".toList) = some (dumps F .pretty (.dict tickDict)) := if_pos (by decide)
  obtain ⟨p, hp⟩ := C154_file_printed_partial (F := F) hb ho ht (printed hF hreal) tick_steady hr
  obtain ⟨out, d, rfl, h1, -, h2⟩ := C154_file_partial hF hb ho ht (printed hF hreal) tick_steady hp
  exact ⟨out, d, hp, h1, h2⟩

end Recap.EndToEnd
