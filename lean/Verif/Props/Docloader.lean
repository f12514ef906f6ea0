import Verif.Jsonld.Docloader
import Verif.Props.Url

/-!
# The document cache (C59)
-/
namespace Verif.Props
open Verif Verif.Jsonld

variable {J : Type}

/-! ### Specification -/

/-- The document the first successful one of the past calls for `url` returned. -/
def firstSuccess (url : String) : List (Load J × Outcome (RemoteDoc J)) → Option (RemoteDoc J)
  | [] => none
  | (l, .ok d) :: past => if l.url = url then some d else firstSuccess url past
  | (_, .error _) :: past => firstSuccess url past

/-- What a call must do after the past calls `past`: give the document of the first successful call
without any request, or else load it. -/
def Expected (bracketOk : List Char → Bool) (lt : LinkTools) (past : List (Load J × Outcome (RemoteDoc J))) (l : Load J)
    (out : Outcome (RemoteDoc J)) (requests : List String) : Prop :=
  match firstSuccess l.url past with
  | some d => out = .ok d ∧ requests = []
  | none => requests = (loaderGet bracketOk lt l.secure l.url l.net).2 ∧
      ((∃ d, (loaderGet bracketOk lt l.secure l.url l.net).1 = .ok d ∧ out = .ok d) ∨
       ((∃ e, (loaderGet bracketOk lt l.secure l.url l.net).1 = .error e) ∧ out = .error .jsonLd))

/-- Every call of a history does what is expected of it. -/
def AllExpected (bracketOk : List Char → Bool) (lt : LinkTools) :
    List (Load J × Outcome (RemoteDoc J)) → List (Load J) → List (Outcome (RemoteDoc J) × List String) → Prop
  | _, [], [] => True
  | past, l :: ls, r :: rs => Expected bracketOk lt past l r.1 r.2 ∧ AllExpected bracketOk lt (past ++ [(l, r.1)]) ls rs
  | _, _, _ => False

theorem firstSuccess_append (url : String) (past : List (Load J × Outcome (RemoteDoc J))) (l : Load J)
    (o : Outcome (RemoteDoc J)) :
    firstSuccess url (past ++ [(l, o)]) = (firstSuccess url past).or (match o with
      | .ok d => if l.url = url then some d else none
      | .error _ => none) := by
  induction past with
  | nil => cases o <;> simp [firstSuccess]
  | cons p past ih =>
    obtain ⟨l', o'⟩ := p
    cases o' with
    | error e => simp only [List.cons_append, firstSuccess, ih]
    | ok d =>
      simp only [List.cons_append, firstSuccess, ih]
      split_ifs <;> simp

theorem cached_history_from (bracketOk : List Char → Bool) (lt : LinkTools) (ls : List (Load J)) :
    ∀ (past : List (Load J × Outcome (RemoteDoc J))) (cache : PyDict String (RemoteDoc J)),
    (∀ u, cache.dget u = firstSuccess u past) → AllExpected bracketOk lt past ls (cachedRun bracketOk lt cache ls) := by
  induction ls with
  | nil => intro past cache _; trivial
  | cons l ls ih =>
    intro past cache hc
    rw [cachedRun]
    have h0 := hc l.url
    unfold cachedCall
    cases hg : cache.dget l.url with
    | some d =>
      simp only
      rw [hg] at h0
      refine ⟨?_, ih _ _ ?_⟩
      · unfold Expected; rw [← h0]; exact ⟨rfl, rfl⟩
      · intro u
        rw [firstSuccess_append, hc u]
        by_cases hu : l.url = u
        · subst hu; rw [← h0]; rfl
        · simp [hu]
    | none =>
      simp only
      rw [hg] at h0
      rcases hl : loaderGet bracketOk lt l.secure l.url l.net with ⟨o, rs⟩
      cases o with
      | ok d =>
        simp only
        refine ⟨?_, ih _ _ ?_⟩
        · unfold Expected; rw [← h0, hl]; exact ⟨rfl, .inl ⟨d, rfl, rfl⟩⟩
        · intro u
          rw [firstSuccess_append, PyDict.dget_dset, hc u]
          by_cases hu : l.url = u
          · subst hu; rw [if_pos rfl, ← h0]; simp
          · rw [if_neg (fun e => hu e.symm)]; simp [hu]
      | error e =>
        simp only
        refine ⟨?_, ih _ _ ?_⟩
        · unfold Expected; rw [← h0, hl]; exact ⟨rfl, .inr ⟨⟨e, rfl⟩, rfl⟩⟩
        · intro u
          rw [firstSuccess_append, hc u]; simp [asJsonLdError]

/-- **C59.** In every history of calls of any loaders, with any behaviour of the network: the first
successful call for a url decides what every later call for it returns, and later calls make no
request; without an earlier success a call loads the document itself, and every failure is a
JsonLdError and is not remembered. -/
theorem cached_history (bracketOk : List Char → Bool) (lt : LinkTools) (ls : List (Load J)) :
    AllExpected bracketOk lt [] ls (cachedRun bracketOk lt [] ls) :=
  cached_history_from bracketOk lt ls [] [] (fun _ => rfl)

/-- Number of successful loads of a url that went over the network. -/
def networkSuccesses (url : String) : List (Load J) → List (Outcome (RemoteDoc J) × List String) → Nat
  | l :: ls, (.ok _, rs) :: out => (if l.url = url then rs.length else 0) + networkSuccesses url ls out
  | _ :: ls, _ :: out => networkSuccesses url ls out
  | _, _ => 0

theorem loaderGet_requests (bracketOk : List Char → Bool) (lt : LinkTools) (secure : Bool) (url : String)
    (net : Outcome (Response J)) : (loaderGet bracketOk lt secure url net).2.length ≤ 1 := by
  unfold loaderGet
  cases checkLoadUrl bracketOk secure url with
  | error e => simp
  | ok _ => cases net <;> simp

theorem once_from (bracketOk : List Char → Bool) (lt : LinkTools) (url : String) (ls : List (Load J)) :
    ∀ cache : PyDict String (RemoteDoc J), networkSuccesses url ls (cachedRun bracketOk lt cache ls) ≤
      if (cache.dget url).isSome then 0 else 1 := by
  induction ls with
  | nil => intro cache; simp [networkSuccesses]
  | cons l ls ih =>
    intro cache
    rw [cachedRun]
    unfold cachedCall
    cases hg : cache.dget l.url with
    | some d =>
      simp only [networkSuccesses]
      have := ih cache
      split_ifs <;> simp_all
    | none =>
      simp only
      rcases hl : loaderGet bracketOk lt l.secure l.url l.net with ⟨o, rs⟩
      cases o with
      | ok d =>
        simp only [networkSuccesses]
        have h1 := ih (cache.dset l.url d)
        rw [PyDict.dget_dset] at h1
        have h2 := loaderGet_requests bracketOk lt l.secure l.url l.net
        rw [hl] at h2
        by_cases hu : l.url = url
        · subst hu
          rw [hg]
          simp at h1 h2 ⊢
          omega
        · have hu' : ¬ url = l.url := fun e => hu e.symm
          simp only [hu', if_false] at h1
          rw [if_neg hu, Nat.zero_add]; exact h1
      | error e =>
        simp only [asJsonLdError, networkSuccesses]
        exact ih cache

/-- **C59.** A document is fetched successfully at most once per url, in every history. -/
theorem fetched_once (bracketOk : List Char → Bool) (lt : LinkTools) (url : String) (ls : List (Load J)) :
    networkSuccesses url ls (cachedRun bracketOk lt [] ls) ≤ 1 := by
  have := once_from bracketOk lt url ls []
  simpa [List.dget] using this

/-- The url is `https://host…` (after the cleaning urlsplit does). -/
def HttpsUrl (url : String) : Prop := ∃ v scheme host rest, Looked url.toList v ∧ UrlShape v scheme host rest ∧ WebScheme true scheme

theorem checkLoadUrl_https {bracketOk : List Char → Bool} {url : String}
    (h : checkLoadUrl bracketOk true url = .ok ()) : HttpsUrl url := by
  have hv : validateUrl bracketOk true url.toList = .ok true := by
    unfold checkLoadUrl at h
    unfold validateUrl
    cases hs : urlsplit bracketOk url.toList with
    | error e => rw [hs] at h; cases h
    | ok sn =>
      obtain ⟨s, n⟩ := sn
      rw [hs] at h
      simp only at h ⊢
      by_cases h1 : s ≠ "http".toList ∧ s ≠ "https".toList
      · rw [if_pos h1] at h; cases h
      rw [if_neg h1] at h ⊢
      by_cases h2 : n = []
      · rw [if_pos h2] at h; cases h
      rw [if_neg h2] at h ⊢
      by_cases h3 : badStart n = true
      · rw [if_pos h3] at h; cases h
      rw [if_neg h3] at h ⊢
      by_cases h4 : True ∧ s ≠ "https".toList
      · rw [if_pos h4] at h; cases h
      rw [if_neg h4]
  rw [validate_url_partial] at hv
  obtain ⟨v, s, ho, r, h0, h1, h2, _⟩ := hv
  exact ⟨v, s, ho, r, h0, h1, h2⟩

/-- **C59.** A secure loader by itself never gives a document for a url that is not https. -/
theorem secure_get (bracketOk : List Char → Bool) (lt : LinkTools) (url : String) (net : Outcome (Response J))
    (d : RemoteDoc J) (h : (loaderGet bracketOk lt true url net).1 = .ok d) : HttpsUrl url := by
  unfold loaderGet at h
  cases hc : checkLoadUrl bracketOk true url with
  | error e => rw [hc] at h; cases h
  | ok u => exact checkLoadUrl_https hc

theorem secure_from (bracketOk : List Char → Bool) (lt : LinkTools) (ls : List (Load J)) (hs : ∀ l ∈ ls, l.secure = true) :
    ∀ cache : PyDict String (RemoteDoc J), (∀ u, (cache.dget u).isSome → HttpsUrl u) →
    ∀ p ∈ ls.zip (cachedRun bracketOk lt cache ls), ∀ d, p.2.1 = .ok d → HttpsUrl p.1.url := by
  induction ls with
  | nil => intro cache _ p hp; cases hp
  | cons l ls ih =>
    intro cache hc p hp d hd
    have ih := ih (fun l' hl' => hs l' (by simp [hl']))
    rw [cachedRun, List.zip_cons_cons] at hp
    unfold cachedCall at hp
    cases hg : cache.dget l.url with
    | some d' =>
      rw [hg] at hp
      rcases List.mem_cons.1 hp with rfl | hp
      · exact hc _ (by simp [hg])
      · exact ih cache hc p hp d hd
    | none =>
      rw [hg] at hp
      simp only at hp
      rcases hl : loaderGet bracketOk lt l.secure l.url l.net with ⟨o, rs⟩
      rw [hl] at hp
      cases o with
      | ok d' =>
        have hh : HttpsUrl l.url := by
          rw [hs l (by simp)] at hl
          exact secure_get bracketOk lt l.url l.net d' (by rw [hl])
        rcases List.mem_cons.1 hp with rfl | hp
        · exact hh
        · refine ih _ ?_ p hp d hd
          intro u hu
          rw [PyDict.dget_dset] at hu
          by_cases e : u = l.url
          · rw [e]; exact hh
          · rw [if_neg e] at hu; exact hc u hu
      | error e =>
        rcases List.mem_cons.1 hp with rfl | hp
        · simp [asJsonLdError] at hd
        · exact ih cache hc p hp d hd

/-- **C59 (partial).** As long as only secure loaders are used, no call returns a document for a url that
is not https.  Missing: the cache is shared with insecure loaders
(`secure_cache_counterexample`). -/
theorem secure_history_partial (bracketOk : List Char → Bool) (lt : LinkTools) (ls : List (Load J))
    (hs : ∀ l ∈ ls, l.secure = true) (p : Load J × (Outcome (RemoteDoc J) × List String))
    (hp : p ∈ ls.zip (cachedRun bracketOk lt [] ls)) (d : RemoteDoc J) (hd : p.2.1 = .ok d) : HttpsUrl p.1.url :=
  secure_from bracketOk lt ls hs [] (by intro u hu; simp [List.dget] at hu) p hp d hd

/-- **C59 (counterexample).** After any successful load by an insecure loader, a secure loader returns the
document for the same url, whatever its scheme. -/
theorem secure_cache_counterexample (bracketOk : List Char → Bool) (lt : LinkTools) (url : String)
    (net net' : Outcome (Response J)) (d : RemoteDoc J) (h : (loaderGet bracketOk lt false url net).1 = .ok d) :
    ∃ rs, cachedRun bracketOk lt [] [⟨false, url, net⟩, ⟨true, url, net'⟩] = [(.ok d, rs), (.ok d, [])] := by
  rcases hl : loaderGet bracketOk lt false url net with ⟨o, rs⟩
  rw [hl] at h
  simp only at h
  subst h
  refine ⟨rs, ?_⟩
  simp [cachedRun, cachedCall, List.dget, hl, List.dset]

/-- Non-vacuity: an http url, a failing first attempt, then a success, then a secure loader. -/
example : cachedRun (fun _ => false) ⟨fun _ t => t, fun _ => true⟩ []
    [⟨false, "http://a.b/c", .error .ioError⟩,
     ⟨false, "http://a.b/c", .ok ⟨some "application/json", "http://a.b/c", .ok 7, some (.one "http://ctx" none, .absent)⟩⟩,
     ⟨true, "http://a.b/c", .error .ioError⟩] =
    [(.error .jsonLd, ["http://a.b/c"]),
     (.ok ⟨"application/json", some "http://ctx", "http://a.b/c", 7⟩, ["http://a.b/c"]),
     (.ok ⟨"application/json", some "http://ctx", "http://a.b/c", (7 : Nat)⟩, [])] := by decide +kernel

/-- **C59.** What a loaded document is: its body, the final url and content type of the response; a context
link is taken over unless the response is JSON-LD itself. -/
theorem document_content (lt : LinkTools) (url : String) (r : Response J) (j : J) (hb : r.body = .ok j) :
    (r.link = none → makeDoc lt url r = .ok ⟨r.typeOf, none, r.url, j⟩) ∧
    (∀ t ty, r.link = some (.one t ty, .absent) → makeDoc lt url r =
      .ok ⟨r.typeOf, if r.typeOf = "application/ld+json" then none else some t, r.url, j⟩) ∧
    (∀ a, r.link = some (.several, a) → r.typeOf ≠ "application/ld+json" → makeDoc lt url r = .error .jsonLd) ∧
    (∀ d, makeDoc lt url r = .ok d → d.document = j) := by
  refine ⟨?_, ?_, ?_, ?_⟩
  · intro h; simp [makeDoc, hb, h]
  · intro t ty h
    simp only [makeDoc, hb, h, linkContext, linkAlternate]
    by_cases he : r.typeOf = "application/ld+json" <;> simp [he]
  · intro a h he
    simp [makeDoc, hb, h, linkContext, he]
  · intro d hd
    have h1 : ∀ (c : LinkRel) (x y : RemoteDoc J), linkContext r.typeOf c x = .ok y → y.document = x.document := by
      intro c x y h
      unfold linkContext at h
      cases c with
      | absent => injection h with h; rw [← h]
      | one t ty =>
        simp only at h
        split_ifs at h <;> (injection h with h; rw [← h])
      | several =>
        simp only at h
        split_ifs at h
        injection h with h; rw [← h]
    have h2 : ∀ (c : LinkRel) (x y : RemoteDoc J), linkAlternate lt url r.typeOf c x = .ok y → y.document = x.document := by
      intro c x y h
      unfold linkAlternate at h
      cases c with
      | absent => injection h with h; rw [← h]
      | one t ty =>
        simp only at h
        split_ifs at h <;> (injection h with h; rw [← h])
      | several => cases h
    unfold makeDoc at hd
    rw [hb] at hd
    simp only at hd
    cases hl : r.link with
    | none => rw [hl] at hd; injection hd with hd; rw [← hd]
    | some ca =>
      obtain ⟨c, a⟩ := ca
      rw [hl] at hd
      simp only at hd
      cases hc : linkContext r.typeOf c ⟨r.typeOf, none, r.url, j⟩ with
      | error e => rw [hc] at hd; cases hd
      | ok x =>
        rw [hc] at hd
        rw [h2 _ _ _ hd, h1 _ _ _ hc]

/-! ### Which requests go out (C152) -/

/-- A url a loader may ask the network for: once cleaned it is `http(s)://host…` with a host that begins with
an allowed character and has its brackets in order; https only if the loader is secure. -/
def MayAsk (bracketOk : List Char → Bool) (secure : Bool) (url : String) : Prop :=
  ∃ v scheme host rest, Looked url.toList v ∧ UrlShape v scheme host rest ∧ WebScheme secure scheme ∧
    (∀ c r, host = c :: r → HostLetter c) ∧ BracketsOk bracketOk host

theorem checkLoadUrl_iff (bracketOk : List Char → Bool) (secure : Bool) (url : String) :
    checkLoadUrl bracketOk secure url = .ok () ↔ MayAsk bracketOk secure url := by
  unfold MayAsk
  rw [← validate_url_partial]
  unfold checkLoadUrl validateUrl
  cases hs : urlsplit bracketOk url.toList with
  | error e => simp
  | ok sn =>
    obtain ⟨s, n⟩ := sn
    simp only
    split_ifs <;> simp

/-- Whatever is wrong with the url, the exception is a ValueError. -/
theorem checkLoadUrl_error (bracketOk : List Char → Bool) (secure : Bool) (url : String) (e : PyErr)
    (h : checkLoadUrl bracketOk secure url = .error e) : e = .valueError := by
  unfold checkLoadUrl urlsplit at h
  simp only at h
  split_ifs at h <;> simp only [Except.error.injEq] at h <;> first | exact h.symm | (split_ifs at h <;> exact (Except.error.inj h).symm)

/-- **C152.** One call of `get` asks the network for the url, once, exactly when the url is an acceptable one,
and for nothing else; a refused url is not asked for and `get` raises ValueError, whatever the network would answer. -/
theorem get_requests (bracketOk : List Char → Bool) (lt : LinkTools) (secure : Bool) (url : String)
    (net : Outcome (Response J)) :
    (MayAsk bracketOk secure url → (loaderGet bracketOk lt secure url net).2 = [url]) ∧
    (¬ MayAsk bracketOk secure url → (loaderGet bracketOk lt secure url net).2 = [] ∧
      (loaderGet bracketOk lt secure url net).1 = .error .valueError) := by
  rw [← checkLoadUrl_iff]
  unfold loaderGet
  cases hc : checkLoadUrl bracketOk secure url with
  | error e => exact ⟨fun h => (nomatch h), fun _ => ⟨rfl, congrArg Except.error (checkLoadUrl_error _ _ _ _ hc)⟩⟩
  | ok u => cases net <;> exact ⟨fun _ => rfl, fun h => absurd rfl h⟩

theorem requests_from (bracketOk : List Char → Bool) (lt : LinkTools) (ls : List (Load J)) :
    ∀ cache : PyDict String (RemoteDoc J), ∀ p ∈ ls.zip (cachedRun bracketOk lt cache ls), ∀ r ∈ p.2.2,
      r = p.1.url ∧ MayAsk bracketOk p.1.secure r := by
  induction ls with
  | nil => intro cache p hp; cases hp
  | cons l ls ih =>
    intro cache p hp r hr
    rw [cachedRun, List.zip_cons_cons] at hp
    rcases List.mem_cons.1 hp with rfl | hp
    · simp only at hr
      unfold cachedCall at hr
      cases hg : cache.dget l.url with
      | some d => rw [hg] at hr; cases hr
      | none =>
        rw [hg] at hr
        have h := get_requests bracketOk lt l.secure l.url l.net
        have hr' : r ∈ (loaderGet bracketOk lt l.secure l.url l.net).2 := by
          rcases hl : loaderGet bracketOk lt l.secure l.url l.net with ⟨o, rs⟩
          rw [hl] at hr
          cases o <;> exact hr
        by_cases hm : MayAsk bracketOk l.secure l.url
        · rw [h.1 hm] at hr'
          have he : r = l.url := by simpa using hr'
          exact ⟨he, he ▸ hm⟩
        · rw [(h.2 hm).1] at hr'; cases hr'
    · exact ih _ p hp r hr

/-- **C152.** In every history of loads by any mixture of secure and insecure loaders sharing the cache, and
whatever the network answers: a call asks for its own url only, and only if that url is acceptable to the loader
called — so a secure loader never sends a request that is not https, even though it may hand out what an insecure
one has cached. -/
theorem requests_acceptable (bracketOk : List Char → Bool) (lt : LinkTools) (ls : List (Load J))
    (p : Load J × (Outcome (RemoteDoc J) × List String)) (hp : p ∈ ls.zip (cachedRun bracketOk lt [] ls))
    (r : String) (hr : r ∈ p.2.2) : r = p.1.url ∧ MayAsk bracketOk p.1.secure r :=
  requests_from bracketOk lt ls [] p hp r hr

/-- Non-vacuity: an http url is asked for by an insecure loader and not by a secure one, though the network would
answer both. -/
example : (loaderGet (fun _ => false) ⟨fun _ t => t, fun _ => true⟩ false "http://a.b/c"
      (.ok ⟨some "application/json", "http://a.b/c", .ok 7, none⟩)).2 = ["http://a.b/c"] ∧
    (loaderGet (fun _ => false) ⟨fun _ t => t, fun _ => true⟩ true "http://a.b/c"
      (.ok ⟨some "application/json", "http://a.b/c", .ok 7, none⟩)) = (.error .valueError, []) := by decide +kernel

/-- The link with relation "alternate" redirects the document: it is there, only once, announces JSON-LD and the
response itself is not JSON. -/
def Redirects (lt : LinkTools) (ct : String) (a : LinkRel) (target : String) : Prop :=
  a = .one target (some "application/ld+json") ∧ lt.isJsonType ct = false

/-- The target of a relation that occurs once. -/
def onlyTarget : LinkRel → Option String
  | .one t _ => some t
  | _ => none

/-- **C152.** What the link with relation "alternate" does, whatever the context link is: several of them make the
load fail; a single one that announces JSON-LD changes the type and the url *noted* in the document (resolved
against the url asked for) if the response is not JSON itself; any other changes nothing.  The context url is the
one the context link alone decides. -/
theorem document_alternate (lt : LinkTools) (url : String) (r : Response J) (j : J) (hb : r.body = .ok j)
    (c a : LinkRel) (hl : r.link = some (c, a)) :
    (a = .several → ∃ e, makeDoc lt url r = .error e) ∧
    (∀ d, makeDoc lt url r = .ok d →
      (∀ t, Redirects lt r.typeOf a t →
        d.contentType = "application/ld+json" ∧ d.documentUrl = lt.prependBase url t) ∧
      ((∀ t, ¬ Redirects lt r.typeOf a t) → d.contentType = r.typeOf ∧ d.documentUrl = r.url) ∧
      (∀ u, d.contextUrl = some u ↔ r.typeOf ≠ "application/ld+json" ∧ ∃ ty, c = .one u ty)) ∧
    (a ≠ .several → (c ≠ .several ∨ r.typeOf = "application/ld+json") → ∃ d, makeDoc lt url r = .ok d) := by
  by_cases he : r.typeOf = "application/ld+json"
  · have hc : ∀ doc : RemoteDoc J, linkContext r.typeOf c doc = .ok doc := by
      intro doc; unfold linkContext; cases c <;> simp [he]
    have hm : makeDoc lt url r = linkAlternate lt url r.typeOf a ⟨r.typeOf, none, r.url, j⟩ := by
      simp only [makeDoc, hb, hl, hc]
    rw [hm]
    cases a with
    | absent =>
      refine ⟨fun h => (nomatch h), fun d hd => ?_, fun _ _ => ⟨_, rfl⟩⟩
      have hd := Except.ok.inj hd
      subst hd
      exact ⟨fun t ht => (nomatch ht.1), fun _ => ⟨rfl, rfl⟩, fun u => by simp [he]⟩
    | several => exact ⟨fun _ => ⟨_, rfl⟩, fun d hd => (nomatch hd), fun h => absurd rfl h⟩
    | one t ty =>
      unfold linkAlternate
      simp only
      by_cases hx : ty = some "application/ld+json" ∧ lt.isJsonType r.typeOf = false
      · rw [if_pos hx]
        refine ⟨fun h => (nomatch h), fun d hd => ?_, fun _ _ => ⟨_, rfl⟩⟩
        have hd := Except.ok.inj hd
        subst hd
        refine ⟨fun t' ht => ⟨rfl, ?_⟩, fun h => absurd ⟨by rw [hx.1], hx.2⟩ (h t), fun u => by simp [he]⟩
        have := ht.1
        simp only [LinkRel.one.injEq] at this
        rw [this.1]
      · rw [if_neg hx]
        refine ⟨fun h => (nomatch h), fun d hd => ?_, fun _ _ => ⟨_, rfl⟩⟩
        have hd := Except.ok.inj hd
        subst hd
        refine ⟨fun t' ht => ?_, fun _ => ⟨rfl, rfl⟩, fun u => by simp [he]⟩
        have := ht.1
        simp only [LinkRel.one.injEq] at this
        exact absurd ⟨this.2, ht.2⟩ hx
  · have hm : c ≠ .several → makeDoc lt url r = linkAlternate lt url r.typeOf a
        ⟨r.typeOf, (onlyTarget c), r.url, j⟩ := by
      intro hc
      unfold makeDoc
      rw [hb, hl]
      cases c with
      | several => exact absurd rfl hc
      | absent => simp [linkContext, onlyTarget]
      | one t ty => simp [linkContext, he, onlyTarget]
    have hs : c = .several → makeDoc lt url r = .error .jsonLd := by
      rintro rfl
      simp [makeDoc, hb, hl, linkContext, he]
    by_cases hcs : c = .several
    · rw [hs hcs]
      exact ⟨fun _ => ⟨_, rfl⟩, fun d hd => (nomatch hd), fun _ h => by
        rcases h with h | h
        · exact absurd hcs h
        · exact absurd h he⟩
    rw [hm hcs]
    have hcu : ∀ u, (onlyTarget c) = some u ↔
        r.typeOf ≠ "application/ld+json" ∧ ∃ ty, c = .one u ty := by
      intro u
      cases c with
      | several => exact absurd rfl hcs
      | absent => simp [onlyTarget]
      | one t ty => simp [he, onlyTarget]
    cases a with
    | absent =>
      refine ⟨fun h => (nomatch h), fun d hd => ?_, fun _ _ => ⟨_, rfl⟩⟩
      have hd := Except.ok.inj hd
      subst hd
      exact ⟨fun t ht => (nomatch ht.1), fun _ => ⟨rfl, rfl⟩, hcu⟩
    | several => exact ⟨fun _ => ⟨_, rfl⟩, fun d hd => (nomatch hd), fun h => absurd rfl h⟩
    | one t ty =>
      unfold linkAlternate
      simp only
      by_cases hx : ty = some "application/ld+json" ∧ lt.isJsonType r.typeOf = false
      · rw [if_pos hx]
        refine ⟨fun h => (nomatch h), fun d hd => ?_, fun _ _ => ⟨_, rfl⟩⟩
        have hd := Except.ok.inj hd
        subst hd
        refine ⟨fun t' ht => ⟨rfl, ?_⟩, fun h => absurd ⟨by rw [hx.1], hx.2⟩ (h t), hcu⟩
        have := ht.1
        simp only [LinkRel.one.injEq] at this
        rw [this.1]
      · rw [if_neg hx]
        refine ⟨fun h => (nomatch h), fun d hd => ?_, fun _ _ => ⟨_, rfl⟩⟩
        have hd := Except.ok.inj hd
        subst hd
        refine ⟨fun t' ht => ?_, fun _ => ⟨rfl, rfl⟩, hcu⟩
        have := ht.1
        simp only [LinkRel.one.injEq] at this
        exact absurd ⟨this.2, ht.2⟩ hx

/-- Non-vacuity: an html page that names its JSON-LD alternate — the loaded document is noted under that url and
type, but its body is the page's own. -/
example : makeDoc ⟨fun b t => b ++ "|" ++ t, fun t => t == "application/json"⟩ "http://a.b/c"
      ⟨some "text/html", "http://a.b/d", .ok 7, some (.absent, .one "x.jsonld" (some "application/ld+json"))⟩ =
      .ok ⟨"application/ld+json", none, "http://a.b/c|x.jsonld", 7⟩ ∧
    makeDoc ⟨fun b t => b ++ "|" ++ t, fun t => t == "application/json"⟩ "http://a.b/c"
      ⟨some "application/json", "http://a.b/d", .ok 7, some (.absent, .one "x.jsonld" (some "application/ld+json"))⟩ =
      .ok ⟨"application/json", none, "http://a.b/d", (7 : Nat)⟩ := by decide +kernel

end Verif.Props
