import Verif.Jsonld.Url

/-!
# URL validation (C55)
-/
namespace Verif.Props
open Verif Verif.Jsonld

/-! ### Specification -/

/-- The text is `scheme://host` followed by nothing or by a path, query or fragment. -/
structure UrlShape (u scheme host rest : List Char) : Prop where
  shape : u = scheme ++ "://".toList ++ host ++ rest
  host_ne : host ≠ []
  host_chars : ∀ c ∈ host, c ≠ '/' ∧ c ≠ '?' ∧ c ≠ '#'
  rest_start : rest = [] ∨ ∃ c r, rest = c :: r ∧ (c = '/' ∨ c = '?' ∨ c = '#')

/-- The scheme is http or https (any case), https only if `secure`. -/
def WebScheme (secure : Bool) (scheme : List Char) : Prop :=
  scheme.map Char.toLower = "https".toList ∨ (secure = false ∧ scheme.map Char.toLower = "http".toList)

/-- Letters, digits, '_', '.', ':' and '-'. -/
def HostLetter (c : Char) : Prop :=
  ('a' ≤ c ∧ c ≤ 'z') ∨ ('A' ≤ c ∧ c ≤ 'Z') ∨ ('0' ≤ c ∧ c ≤ '9') ∨ c = '_' ∨ c = '.' ∨ c = ':' ∨ c = '-'

theorem hostChar_iff (c : Char) : hostChar c = true ↔ HostLetter c := by
  unfold hostChar HostLetter Char.isAlpha Char.isUpper Char.isLower Char.isDigit
  simp only [Char.le_def, Bool.or_eq_true, Bool.and_eq_true, decide_eq_true_eq, beq_iff_eq, ge_iff_le]
  constructor
  · rintro (((((((⟨h1, h2⟩ | ⟨h1, h2⟩) | ⟨h1, h2⟩) | h) | h) | h) | h)) <;> simp_all
  · rintro (h | h | h | h | h | h | h) <;> simp_all

theorem splitNetloc_shape {host rest : List Char} (h1 : ∀ c ∈ host, c ≠ '/' ∧ c ≠ '?' ∧ c ≠ '#')
    (h2 : rest = [] ∨ ∃ c r, rest = c :: r ∧ (c = '/' ∨ c = '?' ∨ c = '#')) :
    splitNetloc ('/' :: '/' :: (host ++ rest)) = host := by
  show (host ++ rest).takeWhile (fun c => c != '/' && c != '?' && c != '#') = host
  rw [List.takeWhile_append_of_pos]
  · rcases h2 with rfl | ⟨c, r, rfl, h⟩
    · simp
    · rcases h with rfl | rfl | rfl <;> simp
  · intro c hc
    obtain ⟨a, b, d⟩ := h1 c hc
    simp [a, b, d]

theorem splitNetloc_inv {u host : List Char} (h : splitNetloc u = host) (hne : host ≠ []) :
    ∃ rest, u = '/' :: '/' :: (host ++ rest) ∧ (∀ c ∈ host, c ≠ '/' ∧ c ≠ '?' ∧ c ≠ '#') ∧
      (rest = [] ∨ ∃ c r, rest = c :: r ∧ (c = '/' ∨ c = '?' ∨ c = '#')) := by
  unfold splitNetloc at h
  split at h
  · rename_i r
    subst h
    refine ⟨r.dropWhile (fun c => c != '/' && c != '?' && c != '#'), by rw [List.takeWhile_append_dropWhile], ?_, ?_⟩
    · intro c hc
      have := List.all_takeWhile (p := fun c => c != '/' && c != '?' && c != '#') (l := r)
      rw [List.all_eq_true] at this
      simpa [and_assoc] using this c hc
    · cases hd : r.dropWhile (fun c => c != '/' && c != '?' && c != '#') with
      | nil => exact .inl rfl
      | cons c r' =>
        right
        refine ⟨c, r', rfl, ?_⟩
        have := List.head_dropWhile_not (l := r) (fun c => c != '/' && c != '?' && c != '#') (by rw [hd]; simp)
        simp only [hd, List.head_cons] at this
        by_contra hn
        push Not at hn
        simp [hn] at this
  · exact absurd h.symm hne

theorem schemeChar_of_toLower {c : Char} (h : c.toLower ∈ "https".toList) : c.isAlpha = true := by
  unfold Char.toLower at h
  split_ifs at h with hc
  · unfold Char.isAlpha Char.isUpper
    simp only [Bool.or_eq_true, decide_eq_true_eq]
    left; exact hc
  · have : c ∈ ['h', 't', 't', 'p', 's'] := h
    simp only [List.mem_cons, List.not_mem_nil, or_false] at this
    rcases this with rfl | rfl | rfl | rfl | rfl <;> rfl

theorem webScheme_chars {s : List Char} (h : s.map Char.toLower = "https".toList ∨ s.map Char.toLower = "http".toList) :
    s ≠ [] ∧ ∀ c ∈ s, c.isAlpha = true := by
  constructor
  · rintro rfl
    rcases h with h | h <;> exact absurd h (by decide)
  · intro c hc
    apply schemeChar_of_toLower
    have hm : c.toLower ∈ s.map Char.toLower := List.mem_map_of_mem hc
    rcases h with h | h
    · rwa [h] at hm
    · rw [h] at hm
      have hsub : ∀ x ∈ "http".toList, x ∈ "https".toList := by decide
      exact hsub _ hm

theorem alpha_ne_colon {c : Char} (h : c.isAlpha = true) : c ≠ ':' := by
  rintro rfl; exact absurd h (by decide)

/-- A web scheme is split off. -/
theorem splitScheme_web {s r : List Char} (h : s ≠ [] ∧ ∀ c ∈ s, c.isAlpha = true) :
    splitScheme (s ++ ':' :: r) = (s.map Char.toLower, r) := by
  obtain ⟨h1, h2⟩ := h
  have hp : ∀ c ∈ s, (c != ':') = true := fun c hc => by simp [alpha_ne_colon (h2 c hc)]
  unfold splitScheme
  rw [List.takeWhile_append_of_pos hp, List.dropWhile_append_of_pos hp]
  obtain ⟨c, s', rfl⟩ := List.exists_cons_of_ne_nil h1
  have hall : (c :: s').all schemeChar = true := by
    rw [List.all_eq_true]; intro x hx; unfold schemeChar; rw [h2 x hx]; rfl
  have e1 : List.takeWhile (· != ':') (':' :: r) = [] := rfl
  have e2 : List.dropWhile (· != ':') (':' :: r) = ':' :: r := rfl
  rw [e1, e2, List.append_nil]
  simp only [hall, Bool.and_true]
  rw [if_pos (show startsAlpha (c :: s') = true from h2 c (by simp))]

theorem splitScheme_inv {u s r : List Char} (h : splitScheme u = (s, r)) (hs : s ≠ []) :
    ∃ s0, u = s0 ++ ':' :: r ∧ s0.map Char.toLower = s := by
  unfold splitScheme at h
  simp only at h
  cases hd : u.dropWhile (· != ':') with
  | nil =>
    rw [hd] at h
    simp only [Prod.mk.injEq] at h
    exact absurd h.1.symm hs
  | cons c rest =>
    rw [hd] at h
    simp only at h
    have hc : c = ':' := by
      have := List.head_dropWhile_not (l := u) (· != ':') (by rw [hd]; simp)
      simpa [hd] using this
    by_cases hif : (startsAlpha (u.takeWhile (· != ':')) &&
        (u.takeWhile (· != ':')).all schemeChar) = true
    · rw [if_pos hif] at h
      simp only [Prod.mk.injEq] at h
      refine ⟨u.takeWhile (· != ':'), ?_, h.1⟩
      rw [← h.2]; rw [hc] at hd; rw [← hd, List.takeWhile_append_dropWhile]
    · rw [if_neg hif] at h
      simp only [Prod.mk.injEq] at h
      exact absurd h.1.symm hs

/-- The condition urlsplit puts on square brackets. -/
def BracketsOk (bracketOk : List Char → Bool) (host : List Char) : Prop :=
  ('[' ∈ host ↔ ']' ∈ host) ∧ ('[' ∈ host → bracketOk host = true)

theorem urlsplit_web (bracketOk : List Char → Bool) (u scheme host : List Char)
    (hs : scheme = "http".toList ∨ scheme = "https".toList) (hh : host ≠ []) :
    urlsplit bracketOk u = .ok (scheme, host) ↔
      BracketsOk bracketOk host ∧ ∃ s0 rest, s0.map Char.toLower = scheme ∧ UrlShape (cleanUrl u) s0 host rest := by
  have hsne : scheme ≠ [] := by rcases hs with rfl | rfl <;> decide
  have hbr : ∀ n : List Char, ((n.contains '[' != n.contains ']') = true) ↔ ¬ ('[' ∈ n ↔ ']' ∈ n) := by
    intro n
    rw [bne_iff_ne, ne_eq, Bool.eq_iff_iff, List.contains_iff_mem, List.contains_iff_mem]
  constructor
  · intro h
    unfold urlsplit at h
    simp only at h
    split_ifs at h with h1 h2
    injection h with h
    simp only [Prod.mk.injEq] at h
    obtain ⟨e1, e2⟩ := h
    rw [e2] at h1 h2
    rw [hbr] at h1
    push Not at h1
    refine ⟨⟨h1, ?_⟩, ?_⟩
    · intro hm
      by_contra hb
      exact h2 (by simp [hm, hb])
    · obtain ⟨s0, h3, h4⟩ := splitScheme_inv (s := scheme) (r := (splitScheme (cleanUrl u)).2)
        (by rw [← e1]) hsne
      obtain ⟨rest, h5, h6, h7⟩ := splitNetloc_inv e2 hh
      refine ⟨s0, rest, h4, ?_, hh, h6, h7⟩
      rw [h3, h5]
      show _ = s0 ++ [':', '/', '/'] ++ host ++ rest
      simp
  · rintro ⟨⟨hb1, hb2⟩, s0, rest, h1, hshape, _, h3, h4⟩
    have hweb : s0.map Char.toLower = "https".toList ∨ s0.map Char.toLower = "http".toList := by
      rw [h1]; exact hs.symm
    have hu : cleanUrl u = s0 ++ ':' :: ('/' :: '/' :: (host ++ rest)) := by
      rw [hshape]
      show s0 ++ [':', '/', '/'] ++ host ++ rest = _
      simp
    unfold urlsplit
    rw [hu, splitScheme_web (webScheme_chars hweb)]
    simp only [splitNetloc_shape h3 h4]
    rw [if_neg (by rw [hbr]; exact fun hn => hn hb1), if_neg, h1]
    simp only [Bool.and_eq_true, Bool.not_eq_true', List.contains_iff_mem]
    rintro ⟨h, h'⟩
    rw [hb2 h] at h'; cases h'

/-- The text urllib looks at when given `u`: spaces and control characters (code 32 and below) in
front are dropped, and so are tabs and line ends anywhere. -/
def Looked (u v : List Char) : Prop :=
  ∃ pre rest, u = pre ++ rest ∧ (∀ c ∈ pre, c.toNat ≤ 32) ∧ (∀ c r, rest = c :: r → 32 < c.toNat) ∧
    v = rest.filter fun c => c ∉ ['\t', '\r', '\n']

theorem looked_iff (u v : List Char) : Looked u v ↔ v = cleanUrl u := by
  have hf : ∀ l : List Char, (l.filter fun c => c ∉ ['\t', '\r', '\n']) =
      l.filter fun c => c != '\t' && c != '\r' && c != '\n' := by
    intro l
    congr 1
    funext c
    rw [Bool.eq_iff_iff]
    simp [and_assoc]
  constructor
  · rintro ⟨pre, rest, rfl, h1, h2, rfl⟩
    unfold cleanUrl
    rw [hf, List.dropWhile_append_of_pos (by simpa using h1)]
    congr 1
    cases rest with
    | nil => rfl
    | cons c r => rw [List.dropWhile_cons_of_neg (by have := h2 c r rfl; simpa using this)]
  · rintro rfl
    refine ⟨u.takeWhile fun c => c.toNat ≤ 32, u.dropWhile fun c => c.toNat ≤ 32,
      List.takeWhile_append_dropWhile.symm, ?_, ?_, by rw [hf]; rfl⟩
    · intro c hc
      have := List.all_takeWhile (p := fun c : Char => decide (c.toNat ≤ 32)) (l := u)
      rw [List.all_eq_true] at this
      simpa using this c hc
    · intro c r hd
      have := List.head_dropWhile_not (l := u) (fun c : Char => decide (c.toNat ≤ 32)) (by rw [hd]; simp)
      simpa [hd] using this

/-- **C55 (partial).** `validate_url` returns True exactly for the strings that, once leading
control characters and spaces and all tabs and line ends are removed, are
`http(s)://host` + path with a non-empty host whose *first* character is allowed (and whose
square brackets are in order), https only when secure.  Missing: the other characters of the host
are not checked (`url_host_counterexample`). -/
theorem validate_url_partial (bracketOk : List Char → Bool) (secure : Bool) (u : List Char) :
    validateUrl bracketOk secure u = .ok true ↔
      ∃ v scheme host rest, Looked u v ∧ UrlShape v scheme host rest ∧ WebScheme secure scheme ∧
        (∀ c r, host = c :: r → HostLetter c) ∧ BracketsOk bracketOk host := by
  constructor
  · intro h
    unfold validateUrl at h
    cases hsp : urlsplit bracketOk u with
    | error e => rw [hsp] at h; cases h
    | ok sn =>
      obtain ⟨scheme, host⟩ := sn
      rw [hsp] at h
      simp only at h
      by_cases h1 : scheme ≠ "http".toList ∧ scheme ≠ "https".toList
      · rw [if_pos h1] at h; cases h
      rw [if_neg h1] at h
      by_cases h2 : host = []
      · rw [if_pos h2] at h; cases h
      rw [if_neg h2] at h
      by_cases h3 : badStart host = true
      · rw [if_pos h3] at h; cases h
      rw [if_neg h3] at h
      by_cases h4 : secure = true ∧ scheme ≠ "https".toList
      · rw [if_pos h4] at h; cases h
      have hs : scheme = "http".toList ∨ scheme = "https".toList := by
        by_contra hn; push Not at hn; exact h1 hn
      obtain ⟨hb, s0, rest, e, hshape⟩ := (urlsplit_web bracketOk u scheme host hs h2).1 hsp
      refine ⟨cleanUrl u, s0, host, rest, (looked_iff _ _).2 rfl, hshape, ?_, ?_, hb⟩
      · unfold WebScheme
        rw [e]
        rcases hs with rfl | rfl
        · right
          refine ⟨?_, rfl⟩
          cases secure with
          | false => rfl
          | true => exact absurd ⟨rfl, by decide⟩ h4
        · exact .inl rfl
      · rintro c r rfl
        rw [← hostChar_iff]
        simpa [badStart] using h3
  · rintro ⟨v, s0, host, rest, hv, hshape, hw, hc, hb⟩
    rw [looked_iff] at hv
    subst hv
    have hs : s0.map Char.toLower = "http".toList ∨ s0.map Char.toLower = "https".toList := by
      rcases hw with h | ⟨_, h⟩
      · exact .inr h
      · exact .inl h
    have hsp := (urlsplit_web bracketOk u (s0.map Char.toLower) host hs hshape.host_ne).2 ⟨hb, s0, rest, rfl, hshape⟩
    unfold validateUrl
    rw [hsp]
    simp only
    rw [if_neg (by rintro ⟨a, b⟩; rcases hs with h | h; exacts [a h, b h]), if_neg hshape.host_ne, if_neg, if_neg]
    · rintro ⟨h1, h2⟩
      rcases hw with h | ⟨h, _⟩
      · exact h2 h
      · rw [h] at h1; cases h1
    · obtain ⟨c, r, rfl⟩ := List.exists_cons_of_ne_nil hshape.host_ne
      have := (hostChar_iff c).2 (hc c r rfl)
      simp [badStart, this]

/-- Non-vacuity, and what the theorem accepts. -/
example : validateUrl (fun _ => false) true "https://example.com:80/a?b".toList = .ok true ∧
    validateUrl (fun _ => false) true "http://example.com".toList = .ok false ∧
    validateUrl (fun _ => false) false "http://example.com".toList = .ok true ∧
    validateUrl (fun _ => false) false "ftp://example.com".toList = .ok false ∧
    validateUrl (fun _ => false) false "https:///x".toList = .ok false ∧
    validateUrl (fun _ => false) false "http://[::1".toList = .error .valueError := by decide +kernel

/-- **C55 (counterexample).** Any character except `/ ? # [ ]`, spaces and control characters may follow the
first one of the host. -/
theorem url_host_counterexample (bracketOk : List Char → Bool) (c : Char)
    (hc : 32 < c.toNat ∧ c ≠ '/' ∧ c ≠ '?' ∧ c ≠ '#' ∧ c ≠ '[' ∧ c ≠ ']') :
    validateUrl bracketOk true ("https://a".toList ++ [c]) = .ok true := by
  rw [validate_url_partial]
  obtain ⟨h1, h2, h3, h4, h5, h6⟩ := hc
  refine ⟨_, "https".toList, ['a', c], [], (looked_iff _ _).2 rfl, ⟨?_, by simp, ?_, .inl rfl⟩, .inl (by decide), ?_, ?_⟩
  · have t1 : c ≠ '\t' := by rintro rfl; exact absurd h1 (by decide)
    have t2 : c ≠ '\r' := by rintro rfl; exact absurd h1 (by decide)
    have t3 : c ≠ '\n' := by rintro rfl; exact absurd h1 (by decide)
    unfold cleanUrl
    show List.filter _ (List.dropWhile _ ('h' :: "ttps://a".toList ++ [c])) = _
    rw [List.cons_append, List.dropWhile_cons_of_neg (by decide)]
    show List.filter _ ['h', 't', 't', 'p', 's', ':', '/', '/', 'a', c] = ['h', 't', 't', 'p', 's', ':', '/', '/', 'a', c]
    simp [t1, t2, t3]
  · intro x hx
    simp only [List.mem_cons, List.not_mem_nil, or_false] at hx
    rcases hx with rfl | rfl
    · decide
    · exact ⟨h2, h3, h4⟩
  · rintro x r h
    injection h with h _
    subst h
    left; decide
  · unfold BracketsOk
    simp [Ne.symm h5, Ne.symm h6]

/-- A concrete accepted host that breaks the claim. -/
example : validateUrl (fun _ => false) true "https://a b<script>".toList = .ok true := by decide +kernel

/-- The setter of the property `id` (activitystreams/properties.py:56-66). -/
def idValidator (bracketOk : List Char → Bool) : SetterValidator :=
  { types := ["str"], functional := true, additional := [validateUrlCheck bracketOk] }

/-- **C55 (counterexample).** A property validated with `validate_url` stores every string without square
brackets, valid or not: the result of the validator is ignored. -/
theorem id_stores_any_counterexample (bracketOk : List Char → Bool) (mro : String → List String) (old : Val) (s : String)
    (hs : '[' ∉ s.toList ∧ ']' ∉ s.toList) :
    (idValidator bracketOk).assign mro old (.str s) = (.ok (), .str s) := by
  have hclean : ∀ c, c ∈ splitNetloc (splitScheme (cleanUrl s.toList)).2 → c ∈ s.toList := by
    have h1 : ∀ c u, c ∈ cleanUrl u → c ∈ u := by
      intro c u h
      exact (List.dropWhile_suffix _).subset (List.mem_of_mem_filter h)
    have h2 : ∀ c u, c ∈ (splitScheme u).2 → c ∈ u := by
      intro c u h
      unfold splitScheme at h
      simp only at h
      cases hd : u.dropWhile (· != ':') with
      | nil => rw [hd] at h; exact h
      | cons x rest =>
        rw [hd] at h
        simp only at h
        have hsub : rest ⊆ u := by
          have := (List.dropWhile_suffix (l := u) (· != ':')).subset
          rw [hd] at this
          exact fun y hy => this (List.mem_cons_of_mem _ hy)
        split_ifs at h
        · exact hsub h
        · exact h
    have h3 : ∀ c u, c ∈ splitNetloc u → c ∈ u := by
      intro c u h
      unfold splitNetloc at h
      split at h
      · have := (List.takeWhile_prefix _).subset h
        simp [this]
      · cases h
    intro c h
    exact h1 _ _ (h2 _ _ (h3 _ _ h))
  have hv : ∃ b, validateUrl bracketOk false s.toList = .ok b := by
    unfold validateUrl urlsplit
    simp only
    have n1 : (splitNetloc (splitScheme (cleanUrl s.toList)).2).contains '[' = false := by
      rw [Bool.eq_false_iff]; intro h; exact hs.1 (hclean _ (List.contains_iff_mem.1 h))
    have n2 : (splitNetloc (splitScheme (cleanUrl s.toList)).2).contains ']' = false := by
      rw [Bool.eq_false_iff]; intro h; exact hs.2 (hclean _ (List.contains_iff_mem.1 h))
    rw [n1, n2]
    simp only [bne_self_eq_false, Bool.false_eq_true, if_false, Bool.false_and]
    split_ifs <;> exact ⟨_, rfl⟩
  obtain ⟨b, hb⟩ := hv
  unfold SetterValidator.assign evaluate idValidator SetterValidator.allTypes effTypes
  simp [Val.isinstance, Val.classes, runAdditional, validateUrlCheck, hb]

/-- Non-vacuity: no URL at all. -/
example : ((idValidator fun _ => false).assign (fun _ => []) .none (.str "not a url")).1 = .ok () := by
  rw [id_stores_any_counterexample _ _ _ _ (by decide +kernel)]

end Verif.Props
