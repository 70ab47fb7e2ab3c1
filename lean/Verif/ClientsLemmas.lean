import Verif.Clients
import Verif.ClientsSpec
import Verif.SettingsLemmas
import Verif.DictLemmas

/-! # Lemmas about the clients -/

set_option autoImplicit false

namespace Recap.Clients

open Recap.Url Recap.Url.Spec Spec

variable {env : Env} {p u : Parts}

/-! ## The dictionary of a URL -/

theorem get?_update' (e : Dict) (d : Dict) (k : String) (hn : (Dict.keys e).Nodup) :
    Dict.get? (Dict.update d e) k = (Dict.get? e k).or (Dict.get? d k) := by
  induction e generalizing d with
  | nil => simp [Dict.update]
  | cons kv e ih =>
    obtain ⟨k', v⟩ := kv
    simp only [Dict.keys, List.map_cons, List.nodup_cons] at hn
    have := ih (d := Dict.set d k' v) hn.2
    simp only [Dict.update, List.foldl_cons] at this ⊢
    rw [this]
    by_cases h : k' = k
    · subst h
      rw [Dict.get?_eq_none_iff.mpr hn.1, Dict.get?_set_self, Dict.get?_cons_self]
      rfl
    · rw [Dict.get?_set_ne _ _ h, Dict.get?_cons_ne _ _ h]

theorem ofList_inj {a b : Chars} (h : String.ofList a = String.ofList b) : a = b := by
  have := congrArg String.toList h
  simpa using this

/-- The query parameters as entries. -/
def queryDict (q : Query) : Dict := q.map (fun kv => (String.ofList kv.1, paramVal kv.2))

theorem queryDict_nodup {q : Query} (h : (names q).Nodup) : (Dict.keys (queryDict q)).Nodup := by
  have e : Dict.keys (queryDict q) = (names q).map String.ofList := by
    simp [Dict.keys, queryDict, names]
  rw [e, List.nodup_iff_pairwise_ne, List.pairwise_map]
  exact (List.nodup_iff_pairwise_ne.mp h).imp (fun hne he => hne (ofList_inj he))

theorem get?_queryDict (q : Query) (k : String) :
    Dict.get? (queryDict q) k = (param q k.toList).map paramVal := by
  induction q with
  | nil => rfl
  | cons kv q ih =>
    obtain ⟨n, vs⟩ := kv
    simp only [queryDict, List.map_cons, param] at ih ⊢
    by_cases h : n = k.toList
    · subst h
      simp
    · have : String.ofList n ≠ k := by
        rintro rfl
        simp at h
      rw [Dict.get?_cons_ne _ _ this, ih, if_neg h]

/-- The entries that come from the URL itself. -/
def ownDict (env : Env) (p : Parts) : Dict :=
  let d := baseDict env (splitOf p) [] p.port
  let d := if present (username (splitOf p)) then Dict.set d "user" (optStr (username (splitOf p))) else d
  let d := if present (hostname env (splitOf p)) then
    Dict.set d "host" (optStr (hostname env (splitOf p))) else d
  let d := Dict.set d "path" (str (rstripSlash p.path))
  let d := Dict.set d "paths" (.list ((pathsOf (rstripSlash p.path)).map str))
  Dict.set d "url" (str (render p))

theorem urlToDict_render (wf : WellFormed env p) (hs : usesParams.contains p.scheme = false)
    (hd : p.scheme.contains '+' = false) :
    urlToDict env (render p) = .ok (Dict.update (ownDict env p) (queryDict (parseQs env p.query))) := by
  have h1 : (splitOf p).scheme = p.scheme := rfl
  simp only [urlToDict, urlparse, urlsplit_render wf, h1, hs, Bool.false_and, bind, Except.bind, pure,
    Except.pure, Bool.false_eq_true, ↓reduceIte, port_split wf, dialect, hd, List.append_nil, ownDict,
    queryDict]
  rfl

theorem get?_render (k : String) :
    Dict.get? (Dict.update (ownDict env p) (queryDict (parseQs env p.query))) k =
      ((param (parseQs env p.query) k.toList).map paramVal).or (Dict.get? (ownDict env p) k) := by
  rw [get?_update' _ _ _ (queryDict_nodup (proper_parseQs env p.query).1), get?_queryDict]

theorem pieces_trailing (path : Chars) : pathsOf (rstripSlash path) = pieces path := by
  have key : ∀ s : Chars, pieces (withoutTrailing s) = pieces s := by
    intro s
    generalize hr : s.reverse = r
    have : s = r.reverse := by rw [← hr]; simp
    subst this
    clear hr
    induction r with
    | nil => rfl
    | cons c r ih =>
      by_cases hc : c = '/'
      · subst hc
        have : withoutTrailing ('/' :: r).reverse = withoutTrailing r.reverse := by
          simp [withoutTrailing]
        rw [this, ih]
        simp [pieces, splitOn_append_slash]
      · have : withoutTrailing (c :: r).reverse = (c :: r).reverse := by
          simp [withoutTrailing, hc]
        rw [this]
  exact key path

theorem get?_own (p : Parts) (k : String) : Dict.get? (ownDict env p) k =
    if k = "url" then some (str (render p))
    else if k = "paths" then some (.list ((pieces p.path).map str))
    else if k = "path" then some (str (rstripSlash p.path))
    else if k = "host" then
      (if present (hostname env (splitOf p)) then some (optStr (hostname env (splitOf p))) else .none)
    else if k = "user" then
      (if present (username (splitOf p)) then some (optStr (username (splitOf p))) else .none)
    else Dict.get? (baseDict env (splitOf p) [] p.port) k := by
  have hset : ∀ (d : Dict) (a : String) (v : PyVal),
      Dict.get? (Dict.set d a v) k = if k = a then some v else Dict.get? d k := by
    intro d a v
    by_cases h : k = a
    · subst h; simp [Dict.get?_set_self]
    · simp [h, Dict.get?_set_ne _ _ (Ne.symm h)]
  have hb : Dict.get? (baseDict env (splitOf p) [] p.port) "host" = .none := by
    simp [baseDict, Dict.get?]
  have hb' : Dict.get? (baseDict env (splitOf p) [] p.port) "user" = .none := by
    simp [baseDict, Dict.get?]
  simp only [ownDict, hset, pieces_trailing]
  repeat' split
  all_goals simp_all

/-- What the dictionary of a URL has under a key that its query leaves alone. -/
theorem get?_silent {names : List String} (hq : Silent env names p.query) {k : String} (hk : k ∈ names) :
    Dict.get? (Dict.update (ownDict env p) (queryDict (parseQs env p.query))) k =
      Dict.get? (ownDict env p) k := by
  rw [get?_render, hq k hk]; rfl

/-! ## The URL of the database -/

theorem pieces_mem {path a : Chars} (h : a ∈ pieces path) : a ≠ [] ∧ ∀ c ∈ a, c ≠ '/' ∧ c ∈ path := by
  simp only [pieces, List.mem_filter, decide_eq_true_eq] at h
  exact ⟨h.2, splitOn_mem path a h.1⟩

theorem database_path (u : Parts) : (databaseUrl u).path = [] ∧ pieces u.path = [] ∨
    ∃ a rest, (databaseUrl u).path = '/' :: a ∧ pieces u.path = a :: rest := by
  cases h : pieces u.path with
  | nil => exact Or.inl ⟨by simp [databaseUrl, h], rfl⟩
  | cons a rest => exact Or.inr ⟨a, rest, by simp [databaseUrl, h], rfl⟩

theorem database_wf (wu : WellFormed env u) : WellFormed env (databaseUrl u) := by
  have key : ((databaseUrl u).path = [] ∨ (databaseUrl u).path.head? = some '/') ∧
      (databaseUrl u).path.take 2 ≠ ['/', '/'] ∧
      ∀ c ∈ (databaseUrl u).path, c ≠ '?' ∧ c ≠ '#' ∧ Quiet c := by
    rcases database_path u with ⟨h, _⟩ | ⟨a, rest, h, hp⟩
    · rw [h]; simp
    · obtain ⟨hne, hc⟩ := pieces_mem (path := u.path) (a := a) (by rw [hp]; simp)
      rw [h]
      refine ⟨Or.inr rfl, ?_, ?_⟩
      · cases a with
        | nil => exact absurd rfl hne
        | cons c a => have := (hc c (by simp)).1; simp [this]
      · intro c hc'
        rcases List.mem_cons.mp hc' with rfl | hc'
        · decide
        · exact wu.path_chars c (hc c hc').2
  exact ⟨wu.scheme_ne, wu.scheme_alpha, wu.scheme_chars, wu.user_chars, wu.host_good, wu.hostless,
    wu.port_le, key.1, key.2.1, key.2.2, wu.query_chars, wu.fragment_chars⟩

theorem split_piece {a : Chars} (h : ∀ c ∈ a, c ≠ '/') : splitOn '/' ('/' :: a) = [[], a] := by
  have := splitOn_none h
  simp [splitOn, this]

theorem pieces_database (u : Parts) : pieces (databaseUrl u).path = (pieces u.path).take 1 := by
  rcases database_path u with ⟨h, hp⟩ | ⟨a, rest, h, hp⟩
  · rw [h, hp]; rfl
  · obtain ⟨hne, hc⟩ := pieces_mem (path := u.path) (a := a) (by rw [hp]; simp)
    rw [h, hp]
    simp [pieces, split_piece (fun c hx => (hc c hx).1), hne]

theorem normal_database (hdot : (pieces u.path).head? ≠ some ['.']) :
    withoutTrailing (normalPath (databaseUrl u).path) = (databaseUrl u).path := by
  rw [trailing_normal]
  rcases database_path u with ⟨h, hp⟩ | ⟨a, rest, h, hp⟩
  · rw [h]; decide
  · obtain ⟨hne, hc⟩ := pieces_mem (path := u.path) (a := a) (by rw [hp]; simp)
    have ha : a ≠ ['.'] := by rintro rfl; rw [hp] at hdot; exact hdot rfl
    have hs : segments ('/' :: a) = [a] := by
      simp [segments, split_piece (fun c hx => (hc c hx).1), hne, ha]
    rw [h, normalPath, hs]
    simp [joinWith]

/-- The connection URL that the clients of databases build. -/
theorem urlunparse_database (wu : WellFormed env u) (hh : u.host ≠ .name []) (path : Chars)
    (hp : (databaseUrl u).path = if path = [] then [] else '/' :: path) (hns : path.head? ≠ some '/') :
    urlunparse ⟨u.scheme, netlocText u, path, u.query, u.fragment⟩ [] = render (databaseUrl u) := by
  have hn : netlocText u ≠ [] := fun h => hh (netloc_nil h)
  rw [render_eq, hp]
  simp only [urlunparse, ↓reduceIte]
  unfold urlunsplit
  extract_lets u1 u2
  have ne := wu.scheme_ne
  have e1 : u1 = '/' :: '/' :: netlocText u ++ (if path = [] then [] else '/' :: path) := by
    simp only [u1]
    rw [if_pos (Or.inl hn)]
    congr 1
    cases path with
    | nil => simp
    | cons c path =>
      have : c ≠ '/' := by rintro rfl; exact hns rfl
      simp [this]
  have e2 : u2 = u.scheme ++ ':' :: u1 := by simp only [u2]; rw [if_pos ne]
  rw [e2, e1]
  simp [Url.optional, databaseUrl]
  rfl

/-- What the URL says that is connected to. -/
def target (env : Env) (cs : List Parts) (u : Parts) : Parts :=
  match chosen cs u with
  | some c => merged env c u
  | .none => u

theorem chosen_answers (cs : List Parts) (u : Parts) :
    cs.find? (fun c => decide (Answers c u)) = chosen cs u := by
  rw [chosen]
  congr 1
  funext c
  apply decide_eq_decide.mpr
  constructor
  · rintro ⟨h1, h2, h3⟩; exact ⟨h2, h1, h3⟩
  · rintro ⟨h2, h1, h3⟩; exact ⟨h1, h2, h3⟩

theorem chosen_some {cs : List Parts} {u c : Parts} (h : chosen cs u = some c) :
    c ∈ cs ∧ c.path ≠ [] ∧ Covers c u := by
  refine ⟨List.mem_of_find?_eq_some h, ?_⟩
  have := List.find?_some h
  exact decide_eq_true_eq.mp this

theorem unsafeUrl_target {cs : List Parts} (wu : WellFormed env u) (wcs : ∀ c ∈ cs, WellFormed env c)
    (hu : usesNetloc.contains u.scheme = false) (strict : Bool) :
    unsafeUrl env (cs.map render) (render u) strict =
      if strict = true ∧ chosen cs u = .none then .error .valueError
      else .ok (render (target env cs u)) := by
  rw [unsafeUrl_render wu wcs, chosen_answers, target]
  cases h : chosen cs u with
  | none => cases strict <;> simp
  | some c =>
    simp only [reduceCtorEq, and_false, ↓reduceIte]
    rw [merge_render (wcs c (chosen_some h).1) wu (Or.inr hu)]

theorem target_wf {cs : List Parts} (wu : WellFormed env u) (wcs : ∀ c ∈ cs, WellFormed env c) :
    WellFormed env (target env cs u) := by
  rw [target]
  cases h : chosen cs u with
  | none => exact wu
  | some c => exact merged_wf (wcs c (chosen_some h).1) wu

theorem target_scheme (cs : List Parts) (u : Parts) : (target env cs u).scheme = u.scheme := by
  rw [target]; cases chosen cs u <;> rfl

theorem target_user (cs : List Parts) (u : Parts) : (target env cs u).user = credentials cs u := by
  rw [target, credentials]; cases chosen cs u <;> rfl

theorem target_port (cs : List Parts) (u : Parts) : (target env cs u).port = u.port := by
  rw [target]
  cases h : chosen cs u with
  | none => rfl
  | some c => exact (chosen_some h).2.2.1.2.2

theorem target_host (cs : List Parts) (u : Parts) :
    (lowerHost (target env cs u).host).text = (lowerHost u.host).text := by
  rw [target]
  cases h : chosen cs u with
  | none => rfl
  | some c => exact (chosen_some h).2.2.1.2.1

theorem target_silent {cs : List Parts} {names : List String} (hq : Silent env names u.query)
    (hcs : ∀ c ∈ cs, Silent env names c.query) : Silent env names (target env cs u).query := by
  rw [target]
  cases h : chosen cs u with
  | none => exact hq
  | some c =>
    intro n hn
    have : (merged env c u).query = mergedQuery env c u := rfl
    rw [this, merged_query, hq n hn, hcs c (chosen_some h).1 n hn]
    rfl

theorem target_path (cs : List Parts) (hdot : (pieces u.path).head? ≠ some ['.']) :
    (target env cs (databaseUrl u)).path = (databaseUrl u).path := by
  rw [target]
  cases chosen cs (databaseUrl u) with
  | none => rfl
  | some c => exact normal_database hdot

/-! ## What the dictionary says -/

/-- The dictionary of a URL. -/
def dictOf (env : Env) (p : Parts) : Dict :=
  Dict.update (ownDict env p) (queryDict (parseQs env p.query))

theorem text_of_host {p : Parts} (wf : WellFormed env p) (h : p.host ≠ .name []) : p.host.text ≠ [] := by
  intro ht
  have hg := wf.host_good
  cases hh : p.host with
  | name x => rw [hh] at ht h; simp only [Host.text] at ht; rw [ht] at h; exact h rfl
  | literal x => rw [hh] at ht hg; exact hg.1 ht

theorem dict_scheme {p : Parts} (hq : Silent env reserved p.query) :
    Dict.get? (dictOf env p) "scheme" = some (str p.scheme) := by
  rw [dictOf, get?_silent hq (by decide), get?_own]; simp [baseDict, Dict.get?, splitOf]

theorem dict_netloc {p : Parts} (hq : Silent env reserved p.query) :
    Dict.get? (dictOf env p) "netloc" = some (str (netlocText p)) := by
  rw [dictOf, get?_silent hq (by decide), get?_own]; simp [baseDict, Dict.get?, splitOf]

theorem dict_params {p : Parts} (hq : Silent env reserved p.query) :
    Dict.get? (dictOf env p) "params" = some (str []) := by
  rw [dictOf, get?_silent hq (by decide), get?_own]; simp [baseDict, Dict.get?]

theorem dict_query {p : Parts} (hq : Silent env reserved p.query) :
    Dict.get? (dictOf env p) "query" = some (str p.query) := by
  rw [dictOf, get?_silent hq (by decide), get?_own]; simp [baseDict, Dict.get?, splitOf]

theorem dict_fragment {p : Parts} (hq : Silent env reserved p.query) :
    Dict.get? (dictOf env p) "fragment" = some (str p.fragment) := by
  rw [dictOf, get?_silent hq (by decide), get?_own]; simp [baseDict, Dict.get?, splitOf]

theorem dict_paths {p : Parts} (hq : Silent env reserved p.query) :
    Dict.get? (dictOf env p) "paths" = some (.list ((pieces p.path).map str)) := by
  rw [dictOf, get?_silent hq (by decide), get?_own]; simp

theorem dict_method {p : Parts} (hq : Silent env reserved p.query) :
    Dict.get? (dictOf env p) "method" = .none := by
  rw [dictOf, get?_silent hq (by decide), get?_own]; simp [baseDict, Dict.get?]

theorem dict_port {p : Parts} (hq : Silent env reserved p.query) : GivenPort (dictOf env p) p.port := by
  unfold GivenPort
  rw [dictOf, get?_silent hq (by decide), get?_own]
  simp only [baseDict, Dict.get?]
  cases p.port <;> simp

theorem dict_host {p : Parts} (wf : WellFormed env p) (hh : p.host ≠ .name [])
    (hq : Silent env reserved p.query) : GivenHost (dictOf env p) "host" p.host := by
  have ht := text_of_host wf hh
  have hl : (lowerHost p.host).text ≠ [] := by
    rw [lowerHost_text]; exact fun h => ht ((lowerText_nil _).mp h)
  rw [GivenHost, dictOf, get?_silent hq (by decide), get?_own, hostname_split wf]
  simp only [ht, ↓reduceIte]
  have : present (some (lowerHost p.host).text) = true := (present_iff _).mpr ⟨_, rfl, hl⟩
  simp [this, optStr, str, text]

theorem dict_credentials {p : Parts} (wf : WellFormed env p) (hq : Silent env reserved p.query) :
    GivenCredentials (dictOf env p) p.user := by
  obtain ⟨h1, h2⟩ := credentials_split wf
  refine ⟨?_, ?_⟩
  · rw [dictOf, get?_silent hq (by decide), get?_own, h1]
    cases hu : p.user with
    | none => simp [present]
    | some uw =>
      obtain ⟨a, w⟩ := uw
      by_cases ha : a = []
      · subst ha
        have : present (some ([] : Chars)) = false := by decide
        simp [this]
      · have : present (some a) = true := (present_iff _).mpr ⟨_, rfl, ha⟩
        simp [this, ha, optStr, str, text]
  · rw [dictOf, get?_silent hq (by decide), get?_own]
    simp only [baseDict, Dict.get?, h2]
    cases hu : p.user with
    | none => simp [optStr]
    | some uw =>
      obtain ⟨a, w⟩ := uw
      cases w <;> simp [optStr, str, text]

theorem keys_nodup_own (p : Parts) : (Dict.keys (ownDict env p)).Nodup := by
  have hb : (Dict.keys (baseDict env (splitOf p) [] p.port)).Nodup := by
    simp [Dict.keys, baseDict]
  unfold ownDict
  extract_lets d1 d2 d3 d4 d5
  have h2 : (Dict.keys d2).Nodup := by
    simp only [d2]; split
    · exact Dict.nodup_keys_set _ _ hb
    · exact hb
  have h3 : (Dict.keys d3).Nodup := by
    simp only [d3]; split
    · exact Dict.nodup_keys_set _ _ h2
    · exact h2
  exact Dict.nodup_keys_set _ _ (Dict.nodup_keys_set _ _ (Dict.nodup_keys_set _ _ h3))

theorem keys_nodup_update (e d : Dict) (h : (Dict.keys d).Nodup) : (Dict.keys (Dict.update d e)).Nodup := by
  induction e generalizing d with
  | nil => exact h
  | cons kv e ih => exact ih _ (Dict.nodup_keys_set _ _ h)

theorem keys_nodup (p : Parts) : (Dict.keys (dictOf env p)).Nodup :=
  keys_nodup_update _ _ (keys_nodup_own p)

theorem keys_nodup_erase (d : Dict) (k : String) (h : (Dict.keys d).Nodup) :
    (Dict.keys (Dict.erase d k)).Nodup :=
  List.Nodup.sublist (List.Sublist.map _ List.filter_sublist) h

theorem get?_only (allowed : List String) (d : Dict) (k : String) :
    Dict.get? (only allowed d) k = if k ∈ allowed then Dict.get? d k else .none := by
  rw [only, Dict.get?_filter_keys d (fun x => allowed.contains x) k]
  simp

/-! ## Databases: parsing and connecting -/

/-- The schemes of the databases with a server. -/
def Server (c : Client) (scheme : Chars) : Prop :=
  (c = .mysql ∧ scheme = "mysql".toList) ∨ (c = .postgresql ∧ scheme = "postgresql".toList) ∨
  (c = .snowflake ∧ scheme = "snowflake".toList)

theorem server_plain {c : Client} {scheme : Chars} (h : Server c scheme) :
    usesParams.contains scheme = false ∧ scheme.contains '+' = false ∧
    usesNetloc.contains scheme = false ∧ clients.lookup (String.ofList scheme) = some c := by
  rcases h with ⟨rfl, rfl⟩ | ⟨rfl, rfl⟩ | ⟨rfl, rfl⟩ <;> decide +kernel

theorem clientOf_dict {c : Client} {p : Parts} (hq : Silent env reserved p.query)
    (h : clients.lookup (String.ofList p.scheme) = some c) : clientOf (dictOf env p) = .ok c := by
  rw [clientOf, dict_scheme hq]
  simp only [str, h]

theorem component_str {d : Dict} {k : String} {s : Chars} (h : Dict.get? d k = some (str s)) :
    component d k = .ok s := by
  rw [component, h]; simp [str]

theorem connectionUrl_dict (wu : WellFormed env u) (hh : u.host ≠ .name [])
    (hq : Silent env reserved u.query) (path : Chars)
    (hp : path = (pieces u.path).head?.getD []) :
    connectionUrl (dictOf env u) "scheme" path = .ok (render (databaseUrl u)) := by
  simp only [connectionUrl, component_str (dict_scheme hq), component_str (dict_netloc hq),
    component_str (dict_params hq), component_str (dict_query hq), component_str (dict_fragment hq),
    bind, Except.bind, pure, Except.pure]
  rw [urlunparse_database wu hh path]
  · rw [hp]
    rcases database_path u with ⟨h, h'⟩ | ⟨a, rest, h, h'⟩
    · rw [h, h']; rfl
    · obtain ⟨hne, hc⟩ := pieces_mem (path := u.path) (a := a) (by rw [h']; simp)
      rw [h, h']; simp [hne]
  · rw [hp]
    rcases database_path u with ⟨h, h'⟩ | ⟨a, rest, h, h'⟩
    · rw [h']; simp
    · obtain ⟨hne, hc⟩ := pieces_mem (path := u.path) (a := a) (by rw [h']; simp)
      rw [h']
      cases a with
      | nil => simp
      | cons x a => have := (hc x (by simp)).1; simp [this]

theorem parsed (wu : WellFormed env u) {c : Client} (hs : Server c u.scheme) :
    urlToDict env (render u) = .ok (dictOf env u) :=
  urlToDict_render wu (server_plain hs).1 (server_plain hs).2.1

/-- The arguments of the listing. -/
def lsArgs (c : Client) (names : List Chars) : List PyVal :=
  match c with
  | .mysql => [optStr names[0]?]
  | _ => [optStr names[0]?, optStr names[1]?]

theorem orNone_map (xs : List Chars) (i : Nat) : orNone (xs.map str)[i]? = optStr xs[i]? := by
  rw [List.getElem?_map]
  cases xs[i]? <;> rfl

theorem orEmpty_map (xs : List Chars) : orEmpty (xs.map str)[0]? = .ok (xs.head?.getD []) := by
  cases xs with
  | nil => rfl
  | cons a xs => simp [orEmpty, str]

theorem truthy_optStr (xs : List Chars) (i : Nat) (h : ∀ a ∈ xs, a ≠ []) :
    (optStr xs[i]?).truthy = decide (i < xs.length) := by
  by_cases hi : i < xs.length
  · rw [List.getElem?_eq_getElem hi]
    have hne := h _ (List.getElem_mem hi)
    have : String.ofList xs[i] ≠ "" := by
      intro he
      have := congrArg String.toList he
      simp at this
      exact hne this
    simp [optStr, str, PyVal.truthy, hi, this]
  · rw [List.getElem?_eq_none (Nat.le_of_not_lt hi)]
    simp [optStr, PyVal.truthy, hi]

theorem pieces_ne (path : Chars) : ∀ a ∈ pieces path, a ≠ [] := fun _ ha => (pieces_mem ha).1

theorem no_method {p : Parts} (hq : Silent env reserved p.query) :
    Dict.has (dictOf env p) "method" = false := by
  rw [Dict.has, dict_method hq]; rfl

theorem pathList_dict {p : Parts} (hq : Silent env reserved p.query) :
    pathList (dictOf env p) = .ok ((pieces p.path).map str) := by
  rw [pathList, dict_paths hq]

/-- How a URL of a database is parsed for a listing. -/
theorem parse_ls (wu : WellFormed env u) {c : Client} (hs : Server c u.scheme)
    (hh : u.host ≠ .name []) (hq : Silent env reserved u.query) :
    parseClient env c "ls" (dictOf env u) =
      if c ≠ .mysql ∧ 3 ≤ (pieces u.path).length then .error .valueError
      else .ok (render (databaseUrl u), lsArgs c (pieces u.path)) := by
  have hc := connectionUrl_dict wu hh hq _ rfl
  have ht := truthy_optStr (pieces u.path) 2 (pieces_ne _)
  rcases hs with ⟨rfl, _⟩ | ⟨rfl, _⟩ | ⟨rfl, _⟩
  · simp only [parseClient, no_method hq, parseMysql, pathList_dict hq, orEmpty_map, hc, bind,
      Except.bind, pure, Except.pure, lsArgs, orNone_map]
    simp
  all_goals
    simp only [parseClient, no_method hq, parseDbapi, pathList_dict hq, orEmpty_map, hc, bind,
      Except.bind, pure, Except.pure, lsArgs, orNone_map, ht]
    by_cases h3 : 2 < (pieces u.path).length
    · have : 3 ≤ (pieces u.path).length := h3
      simp [h3, this]
    · have : ¬ 3 ≤ (pieces u.path).length := h3
      simp [h3, this]

/-- How a URL of a database is parsed for reading a table. -/
theorem parse_schema (wu : WellFormed env u) {c : Client} (hs : Server c u.scheme)
    (hh : u.host ≠ .name []) (hq : Silent env reserved u.query) :
    parseClient env c "schema" (dictOf env u) =
      match c, pieces u.path with
      | .mysql, a :: b :: _ => .ok (render (databaseUrl u), [str a, str b])
      | .mysql, _ => .error .valueError
      | _, a :: b :: t :: _ => .ok (render (databaseUrl u), [str a, str b, str t])
      | _, _ => .error .valueError := by
  have hc := connectionUrl_dict wu hh hq _ rfl
  have ht := fun i => truthy_optStr (pieces u.path) i (pieces_ne _)
  rcases hs with ⟨rfl, _⟩ | ⟨rfl, _⟩ | ⟨rfl, _⟩
  all_goals
    simp only [parseClient, no_method hq, parseMysql, parseDbapi, pathList_dict hq, orEmpty_map, hc, bind,
      Except.bind, pure, Except.pure, orNone_map, ht]
    generalize pieces u.path = ps
    match ps with
    | [] => simp
    | [a] => simp
    | [a, b] => simp [optStr]
    | a :: b :: t :: rest => simp [optStr]

/-- The argument of the driver that names the server. -/
def hostKey : Client → String
  | .snowflake => "account"
  | _ => "host"

/-- The argument of the driver that names the database. -/
def databaseKey : Client → String
  | .postgresql => "dbname"
  | _ => "database"

theorem withDatabase_dict {p : Parts} (hq : Silent env reserved p.query) (key : String) :
    withDatabase (dictOf env p) key = .ok (match pieces p.path with
      | [] => Dict.erase (dictOf env p) "paths"
      | a :: _ => Dict.set (Dict.erase (dictOf env p) "paths") key (str a)) := by
  simp only [withDatabase, dict_paths hq]
  cases pieces p.path with
  | nil => rfl
  | cons a rest => rfl

/-- What a driver whose arguments are filtered is given. -/
theorem given_filtered {p : Parts} (wf : WellFormed env p) (hh : p.host ≠ .name [])
    (hq : Silent env reserved p.query) (allowed : List String) (key : String)
    (ha : ∀ k ∈ ["host", "port", "user", "password", key], k ∈ allowed)
    (hk : key ∉ ["host", "port", "user", "password"]) (kwargs : Dict)
    (he : kwargs = only allowed (match pieces p.path with
      | [] => Dict.erase (dictOf env p) "paths"
      | a :: _ => Dict.set (Dict.erase (dictOf env p) "paths") key (str a))) :
    GivenHost kwargs "host" p.host ∧ GivenPort kwargs p.port ∧ GivenCredentials kwargs p.user ∧
      GivenDatabase kwargs key p.path := by
  have hget : ∀ k ∈ ["host", "port", "user", "password"],
      Dict.get? kwargs k = Dict.get? (dictOf env p) k := by
    intro k hk'
    have h1 : k ≠ key := fun h => hk (h ▸ hk')
    have h2 : k ≠ "paths" := by rintro rfl; revert hk'; decide
    have h3 : k ∈ allowed := ha k (by simp at hk' ⊢; rcases hk' with h | h | h | h <;> simp [h])
    rw [he, get?_only, if_pos h3]
    cases pieces p.path with
    | nil => exact Dict.get?_erase_ne _ (Ne.symm h2)
    | cons a rest =>
      simp only
      rw [Dict.get?_set_ne _ _ (Ne.symm h1), Dict.get?_erase_ne _ (Ne.symm h2)]
  refine ⟨?_, ?_, ?_, ?_⟩
  · rw [GivenHost, hget _ (by decide)]; exact dict_host wf hh hq
  · unfold GivenPort; rw [hget _ (by decide)]; exact dict_port hq
  · unfold GivenCredentials; rw [hget _ (by decide), hget _ (by decide)]; exact dict_credentials wf hq
  · intro a ha'
    rw [he, get?_only, if_pos (ha key (by simp))]
    cases hp : pieces p.path with
    | nil => rw [hp] at ha'; simp at ha'
    | cons b rest =>
      rw [hp] at ha'; simp at ha'; subst ha'
      exact Dict.get?_set_self _ _ _

/-- Connecting to a database. -/
theorem connect {t : Parts} (wt : WellFormed env t) {c : Client} (hs : Server c t.scheme)
    (hh : t.host ≠ .name []) (hq : Silent env reserved t.query) (mysqlArgs : List String)
    (hm : ∀ k ∈ ["host", "port", "user", "password", "database"], k ∈ mysqlArgs) :
    ∃ kwargs, createClient env mysqlArgs (render t) = .ok (c, kwargs) ∧
      GivenHost kwargs (hostKey c) t.host ∧ GivenPort kwargs t.port ∧ GivenCredentials kwargs t.user ∧
      (c ≠ .snowflake → GivenDatabase kwargs (databaseKey c) t.path) := by
  have hc : ∀ r, create mysqlArgs c (dictOf env t) = .ok r →
      createClient env mysqlArgs (render t) = .ok (c, r) := by
    intro r hr
    simp only [createClient, parsed wt hs, bind, Except.bind,
      clientOf_dict hq (server_plain hs).2.2.2, hr, pure, Except.pure]
  have hs' := hs
  rcases hs' with ⟨rfl, _⟩ | ⟨rfl, _⟩ | ⟨rfl, _⟩
  · refine ⟨_, hc _ (by
      simp only [create, withDatabase_dict hq, bind, Except.bind, pure, Except.pure]; rfl), ?_⟩
    obtain ⟨h1, h2, h3, h4⟩ := given_filtered wt hh hq mysqlArgs "database" hm (by decide) _ rfl
    exact ⟨h1, h2, h3, fun _ => h4⟩
  · refine ⟨_, hc _ (by
      simp only [create, withDatabase_dict hq, bind, Except.bind, pure, Except.pure]; rfl), ?_⟩
    obtain ⟨h1, h2, h3, h4⟩ :=
      given_filtered wt hh hq psycopgArgs "dbname" (by decide) (by decide) _ rfl
    exact ⟨h1, h2, h3, fun _ => h4⟩
  · have hhost := dict_host wt hh hq
    unfold GivenHost at hhost
    have hacc : Dict.get? (dictOf env t) "account" = .none := by
      rw [dictOf, get?_silent hq (by decide), get?_own]; simp [baseDict, Dict.get?]
    have hn := keys_nodup_erase _ "host" (keys_nodup (env := env) t)
    have hget : ∀ (args : Dict) (k : String), Dict.get? (Dict.update args (Dict.erase (dictOf env t) "host")) k
        = (Dict.get? (Dict.erase (dictOf env t) "host") k).or (Dict.get? args k) :=
      fun args k => get?_update' _ _ _ hn
    have key : ∀ args : Dict, Dict.get? args "account" = some (text (lowerHost t.host).text) →
        (∀ k ∈ ["port", "user", "password"], Dict.get? args k = .none) →
        let kwargs := Dict.update args (Dict.erase (dictOf env t) "host")
        GivenHost kwargs (hostKey .snowflake) t.host ∧ GivenPort kwargs t.port ∧
          GivenCredentials kwargs t.user ∧
          (Client.snowflake ≠ .snowflake → GivenDatabase kwargs (databaseKey .snowflake) t.path) := by
      intro args h1 h2
      refine ⟨?_, ?_, ?_, fun h => absurd rfl h⟩
      · rw [GivenHost, hostKey, hget, Dict.get?_erase_ne _ (by decide), hacc, h1]; rfl
      · unfold GivenPort
        rw [hget, Dict.get?_erase_ne _ (by decide), h2 _ (by decide), Option.or_none]
        exact dict_port hq
      · unfold GivenCredentials
        rw [hget, hget, Dict.get?_erase_ne _ (by decide), Dict.get?_erase_ne _ (by decide),
          h2 _ (by decide), h2 _ (by decide), Option.or_none, Option.or_none]
        exact dict_credentials wt hq
    refine ⟨_, hc _ (by simp only [create, hhost]; rfl), ?_⟩
    apply key
    · split <;> simp
    · intro k hk
      simp at hk
      split <;> rcases hk with rfl | rfl | rfl <;> simp [Dict.get?]

end Recap.Clients
