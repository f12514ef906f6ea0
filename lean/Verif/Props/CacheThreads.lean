import Verif.Jsonld.Threads
import Verif.Props.Docloader

/-!
# Threads sharing the document cache (C106)

The log of a schedule has the latest event first.
-/
namespace Verif.Props
open Verif Verif.Jsonld

variable {J : Type}

/-- The invariant of all schedules. -/
structure CacheInv (s : CacheThreads J) : Prop where
  cache : ∀ url d, s.cache.dget url = some d → ∃ j, CacheEvent.got j url d ∈ s.log
  loaded : ∀ i url d, s.pc i = .loaded url d → ∃ j, CacheEvent.got j url d ∈ s.log
  present : ∀ i url, s.pc i = .present url → s.cache.dget url ≠ none
  results : ∀ l1 l2 i url r, s.log = l1 ++ CacheEvent.returned i url r :: l2 →
    r = .error .jsonLd ∨ ∃ d, r = .ok (some d) ∧ ∃ j, CacheEvent.got j url d ∈ l2
  kept : ∀ i url r, CacheEvent.returned i url (.ok r) ∈ s.log → s.cache.dget url ≠ none
  missing : ∀ i secure url, s.pc i = .missing secure url → ∃ l2 l3, s.log = l2 ++ CacheEvent.called i url :: l3 ∧
    (∀ u, CacheEvent.called i u ∉ l2) ∧ ∀ j r, CacheEvent.returned j url (.ok r) ∉ l3
  loads : ∀ l1 l2 i url d, s.log = l1 ++ CacheEvent.got i url d :: l2 → ∃ l3 l4, l2 = l3 ++ CacheEvent.called i url :: l4 ∧
    (∀ u, CacheEvent.called i u ∉ l3) ∧ ∀ j r, CacheEvent.returned j url (.ok r) ∉ l4

theorem cache_goto_pc (s : CacheThreads J) (i : Nat) (p : CachePc J) (es : List (CacheEvent J)) (j : Nat) :
    (s.goto i p es).pc j = if j = i then p else s.pc j := by
  by_cases h : j = i
  · subst h; simp [CacheThreads.goto]
  · simp [CacheThreads.goto, h]

/-- A split of a list with a new head. -/
theorem split_cons {α : Type} {x y : α} {l l1 l2 : List α} (h : x :: l = l1 ++ y :: l2) : (l1 = [] ∧ y = x ∧ l2 = l) ∨ ∃ l1', l1 = x :: l1' ∧ l = l1' ++ y :: l2 := by
  cases l1 with
  | nil => simp only [List.nil_append, List.cons.injEq] at h; exact .inl ⟨rfl, h.1.symm, h.2.symm⟩
  | cons z l1 => simp only [List.cons_append, List.cons.injEq] at h; exact .inr ⟨l1, by rw [h.1], h.2⟩

theorem CacheInv.act {bracketOk : List Char → Bool} {lt : LinkTools} {s : CacheThreads J} (h : CacheInv s) (i : Nat) (d : CacheDo J) :
    CacheInv (s.act bracketOk lt i d) := by
  obtain ⟨hc, hl, hp, hr, hk, hm, hg⟩ := h
  have same : s.act bracketOk lt i d = s → CacheInv (s.act bracketOk lt i d) := fun e => by rw [e]; exact ⟨hc, hl, hp, hr, hk, hm, hg⟩
  cases hpc : s.pc i with
  | idle =>
    cases d with
    | call secure url =>
      have e : s.act bracketOk lt i (.call secure url) = s.goto i (if s.cache.dget url = none then .missing secure url else .present url) [.called i url] := by
        unfold CacheThreads.act; rw [hpc]
      rw [e]
      refine ⟨fun u d hd => ?_, fun j u d hj => ?_, fun j u hj => ?_, fun l1 l2 j u r hs => ?_, fun j u r hj => ?_, fun j sec u hj => ?_, fun l1 l2 j u d hs => ?_⟩
      · obtain ⟨j, hj⟩ := hc u d hd; exact ⟨j, List.mem_cons_of_mem _ hj⟩
      · rw [cache_goto_pc] at hj
        split_ifs at hj with h1 h2
        obtain ⟨k, hk⟩ := hl j u d hj; exact ⟨k, List.mem_cons_of_mem _ hk⟩
      · rw [cache_goto_pc] at hj
        split_ifs at hj with h1 h2
        · injection hj with hj; subst hj; exact h2
        · exact hp j u hj
      · rcases split_cons hs with ⟨-, h', -⟩ | ⟨l1', -, h'⟩
        · cases h'
        · exact hr l1' l2 j u r h'
      · rcases List.mem_cons.1 hj with h' | h'
        · cases h'
        · exact hk j u r h'
      · rw [cache_goto_pc] at hj
        split_ifs at hj with h1 h2
        · injection hj with _ hu; subst hu; subst h1
          refine ⟨[], s.log, rfl, by simp, fun k r hk' => hk k _ r hk' h2⟩
        · obtain ⟨l2, l3, a, b, c⟩ := hm j sec u hj
          refine ⟨.called i url :: l2, l3, by show _ :: s.log = _; rw [a]; rfl, ?_, c⟩
          intro v hv
          rcases List.mem_cons.1 hv with h' | h'
          · injection h' with h' _; exact h1 h'
          · exact b v h'
      · rcases split_cons hs with ⟨-, h', -⟩ | ⟨l1', -, h'⟩
        · cases h'
        · exact hg l1' l2 j u d h'
    | load net => exact same (by unfold CacheThreads.act; rw [hpc])
    | step => exact same (by unfold CacheThreads.act; rw [hpc])
  | missing secure url =>
    cases d with
    | load net =>
      cases ho : (loaderGet bracketOk lt secure url net).1 with
      | ok doc =>
        have e : s.act bracketOk lt i (.load net) = s.goto i (.loaded url doc) [.got i url doc] := by
          unfold CacheThreads.act; rw [hpc]; simp only [ho]
        rw [e]
        refine ⟨fun u d hd => ?_, fun j u d hj => ?_, fun j u hj => ?_, fun l1 l2 j u r hs => ?_, fun j u r hj => ?_, fun j sec u hj => ?_, fun l1 l2 j u d hs => ?_⟩
        · obtain ⟨j, hj⟩ := hc u d hd; exact ⟨j, List.mem_cons_of_mem _ hj⟩
        · rw [cache_goto_pc] at hj
          split_ifs at hj with h1
          · injection hj with h2 h3; subst h2; subst h3; exact ⟨i, List.mem_cons_self⟩
          · obtain ⟨k, hk⟩ := hl j u d hj; exact ⟨k, List.mem_cons_of_mem _ hk⟩
        · rw [cache_goto_pc] at hj
          split_ifs at hj with h1
          exact hp j u hj
        · rcases split_cons hs with ⟨-, h', -⟩ | ⟨l1', -, h'⟩
          · cases h'
          · exact hr l1' l2 j u r h'
        · rcases List.mem_cons.1 hj with h' | h'
          · cases h'
          · exact hk j u r h'
        · rw [cache_goto_pc] at hj
          split_ifs at hj with h1
          obtain ⟨l2, l3, a, b, c⟩ := hm j sec u hj
          refine ⟨.got i url doc :: l2, l3, by show _ :: s.log = _; rw [a]; rfl, ?_, c⟩
          intro v hv
          rcases List.mem_cons.1 hv with h' | h'
          · cases h'
          · exact b v h'
        · rcases split_cons hs with ⟨-, h', h''⟩ | ⟨l1', -, h'⟩
          · injection h' with h1 h2 h3; subst h1; subst h2; subst h''
            exact hm _ _ _ hpc
          · exact hg l1' l2 j u d h'
      | error e0 =>
        have e : s.act bracketOk lt i (.load net) = s.goto i .idle [.returned i url (.error .jsonLd)] := by
          unfold CacheThreads.act; rw [hpc]; simp only [ho]
        rw [e]
        refine ⟨fun u d hd => ?_, fun j u d hj => ?_, fun j u hj => ?_, fun l1 l2 j u r hs => ?_, fun j u r hj => ?_, fun j sec u hj => ?_, fun l1 l2 j u d hs => ?_⟩
        · obtain ⟨j, hj⟩ := hc u d hd; exact ⟨j, List.mem_cons_of_mem _ hj⟩
        · rw [cache_goto_pc] at hj
          split_ifs at hj with h1
          obtain ⟨k, hk⟩ := hl j u d hj; exact ⟨k, List.mem_cons_of_mem _ hk⟩
        · rw [cache_goto_pc] at hj
          split_ifs at hj with h1
          exact hp j u hj
        · rcases split_cons hs with ⟨-, h', -⟩ | ⟨l1', -, h'⟩
          · injection h' with _ _ h'; exact .inl h'
          · exact hr l1' l2 j u r h'
        · rcases List.mem_cons.1 hj with h' | h'
          · cases h'
          · exact hk j u r h'
        · rw [cache_goto_pc] at hj
          split_ifs at hj with h1
          obtain ⟨l2, l3, a, b, c⟩ := hm j sec u hj
          refine ⟨.returned i url (.error .jsonLd) :: l2, l3, by show _ :: s.log = _; rw [a]; rfl, ?_, c⟩
          intro v hv
          rcases List.mem_cons.1 hv with h' | h'
          · cases h'
          · exact b v h'
        · rcases split_cons hs with ⟨-, h', -⟩ | ⟨l1', -, h'⟩
          · cases h'
          · exact hg l1' l2 j u d h'
    | call secure url => exact same (by unfold CacheThreads.act; rw [hpc])
    | step => exact same (by unfold CacheThreads.act; rw [hpc])
  | loaded url doc =>
    cases d with
    | step =>
      have e : s.act bracketOk lt i .step = ({ s with cache := s.cache.dset url doc } : CacheThreads J).goto i (.present url) [] := by
        unfold CacheThreads.act; rw [hpc]
      rw [e]
      have kept : ∀ u, s.cache.dget u ≠ none → (s.cache.dset url doc).dget u ≠ none := by
        intro u hu; rw [PyDict.dget_dset]; split_ifs
        · simp
        · exact hu
      refine ⟨fun u d hd => ?_, fun j u d hj => ?_, fun j u hj => ?_, hr, fun j u r hj => kept u (hk j u r hj), fun j sec u hj => ?_, hg⟩
      · change (s.cache.dset url doc).dget u = some d at hd
        rw [PyDict.dget_dset] at hd
        split_ifs at hd with h1
        · subst h1; cases hd; exact hl i _ _ hpc
        · exact hc u d hd
      · rw [cache_goto_pc] at hj
        split_ifs at hj with h1
        exact hl j u d hj
      · change (s.cache.dset url doc).dget u ≠ none
        rw [cache_goto_pc] at hj
        split_ifs at hj with h1
        · injection hj with hj; subst hj; rw [PyDict.dget_dset]; simp
        · exact kept u (hp j u hj)
      · rw [cache_goto_pc] at hj
        split_ifs at hj with h1
        exact hm j sec u hj
    | call secure url => exact same (by unfold CacheThreads.act; rw [hpc])
    | load net => exact same (by unfold CacheThreads.act; rw [hpc])
  | present url =>
    cases d with
    | step =>
      have e : s.act bracketOk lt i .step = s.goto i .idle [.returned i url (.ok (s.cache.dget url))] := by
        unfold CacheThreads.act; rw [hpc]
      rw [e]
      refine ⟨fun u d hd => ?_, fun j u d hj => ?_, fun j u hj => ?_, fun l1 l2 j u r hs => ?_, fun j u r hj => ?_, fun j sec u hj => ?_, fun l1 l2 j u d hs => ?_⟩
      · obtain ⟨j, hj⟩ := hc u d hd; exact ⟨j, List.mem_cons_of_mem _ hj⟩
      · rw [cache_goto_pc] at hj
        split_ifs at hj with h1
        obtain ⟨k, hk⟩ := hl j u d hj; exact ⟨k, List.mem_cons_of_mem _ hk⟩
      · rw [cache_goto_pc] at hj
        split_ifs at hj with h1
        exact hp j u hj
      · rcases split_cons hs with ⟨-, h', h''⟩ | ⟨l1', -, h'⟩
        · injection h' with h1 h2 h3; subst h1; subst h2; subst h3; subst h''
          obtain ⟨d, hd⟩ := Option.ne_none_iff_exists'.1 (hp _ _ hpc)
          exact .inr ⟨d, by rw [hd], hc _ d hd⟩
        · exact hr l1' l2 j u r h'
      · rcases List.mem_cons.1 hj with h' | h'
        · injection h' with h1 h2 h3; subst h2; exact hp i _ hpc
        · exact hk j u r h'
      · rw [cache_goto_pc] at hj
        split_ifs at hj with h1
        obtain ⟨l2, l3, a, b, c⟩ := hm j sec u hj
        refine ⟨.returned i url (.ok (s.cache.dget url)) :: l2, l3, by show _ :: s.log = _; rw [a]; rfl, ?_, c⟩
        intro v hv
        rcases List.mem_cons.1 hv with h' | h'
        · cases h'
        · exact b v h'
      · rcases split_cons hs with ⟨-, h', -⟩ | ⟨l1', -, h'⟩
        · cases h'
        · exact hg l1' l2 j u d h'
    | call secure url => exact same (by unfold CacheThreads.act; rw [hpc])
    | load net => exact same (by unfold CacheThreads.act; rw [hpc])

theorem CacheInv.acts {bracketOk : List Char → Bool} {lt : LinkTools} (ds : List (Nat × CacheDo J)) :
    ∀ {s : CacheThreads J}, CacheInv s → CacheInv (s.acts bracketOk lt ds) := by
  induction ds with
  | nil => intro s h; exact h
  | cons x ds ih => intro s h; exact ih (h.act x.1 x.2)

theorem CacheInv.start : CacheInv ({} : CacheThreads J) :=
  ⟨by simp [List.dget], by simp, by simp, by simp, by simp, by simp, by simp⟩

/-- **C106 (partial, any schedule).** However the threads are interleaved and whatever the network does: a call returns a document that was loaded
for its url before (by it or another call), or raises JsonLdError; and a document is only loaded by a call that began before any call for the url
returned one.  Missing: that a document is loaded once and that all calls return the same one, which is false (`cache_twice_counterexample`). -/
theorem cache_threads_partial (bracketOk : List Char → Bool) (lt : LinkTools) (ds : List (Nat × CacheDo J)) :
    let s := CacheThreads.acts bracketOk lt {} ds
    (∀ later earlier i url r, s.log = later ++ .returned i url r :: earlier →
      r = .error .jsonLd ∨ ∃ d, r = .ok (some d) ∧ ∃ j, CacheEvent.got j url d ∈ earlier) ∧
    (∀ later earlier i url d, s.log = later ++ .got i url d :: earlier → ∃ during before, earlier = during ++ .called i url :: before ∧
      (∀ u, CacheEvent.called i u ∉ during) ∧ ∀ j r, CacheEvent.returned j url (.ok r) ∉ before) := by
  have h := CacheInv.acts (bracketOk := bracketOk) (lt := lt) ds CacheInv.start
  exact ⟨fun l1 l2 i url r => h.results l1 l2 i url r, fun l1 l2 i url d => h.loads l1 l2 i url d⟩

/-! ### After the first calls -/

/-- No thread is loading the document of this url. -/
def NotLoading (url : String) (s : CacheThreads J) : Prop := ∀ i, (∀ secure, s.pc i ≠ .missing secure url) ∧ ∀ d, s.pc i ≠ .loaded url d

theorem settled_act {bracketOk : List Char → Bool} {lt : LinkTools} {s : CacheThreads J} {url : String} {doc : RemoteDoc J}
    (hc : s.cache.dget url = some doc) (hq : NotLoading url s) (i : Nat) (d : CacheDo J) :
    let s' := s.act bracketOk lt i d
    s'.cache.dget url = some doc ∧ NotLoading url s' ∧ ∃ new, s'.log = new ++ s.log ∧
      (∀ j r, CacheEvent.returned j url r ∈ new → r = .ok (some doc)) ∧ ∀ j d', CacheEvent.got j url d' ∉ new := by
  intro s'
  have same : s' = s → s'.cache.dget url = some doc ∧ NotLoading url s' ∧ ∃ new, s'.log = new ++ s.log ∧
      (∀ j r, CacheEvent.returned j url r ∈ new → r = .ok (some doc)) ∧ ∀ j d', CacheEvent.got j url d' ∉ new := fun e => by
    rw [e]; exact ⟨hc, hq, [], rfl, by simp, by simp⟩
  have quiet : ∀ (t : CacheThreads J) (p : CachePc J) es, t.pc = s.pc → (∀ secure, p ≠ .missing secure url) → (∀ d, p ≠ .loaded url d) →
      NotLoading url (t.goto i p es) := by
    intro t p es ht h1 h2 j
    simp only [cache_goto_pc, ht]
    split_ifs
    · exact ⟨h1, h2⟩
    · exact hq j
  cases hpc : s.pc i with
  | idle =>
    cases d with
    | call secure u =>
      have e : s' = s.goto i (if s.cache.dget u = none then .missing secure u else .present u) [.called i u] := by
        show s.act _ _ _ _ = _; unfold CacheThreads.act; rw [hpc]
      rw [e]
      refine ⟨hc, quiet s _ _ rfl ?_ ?_, [.called i u], rfl, by simp, by simp⟩
      · intro sec
        split_ifs with h
        · intro h'; injection h' with _ h'; subst h'; rw [hc] at h; cases h
        · simp
      · intro d; split_ifs <;> simp
    | load net => exact same (by show s.act _ _ _ _ = _; unfold CacheThreads.act; rw [hpc])
    | step => exact same (by show s.act _ _ _ _ = _; unfold CacheThreads.act; rw [hpc])
  | missing secure u =>
    have hne : u ≠ url := fun h => (hq i).1 secure (h ▸ hpc)
    cases d with
    | load net =>
      cases ho : (loaderGet bracketOk lt secure u net).1 with
      | ok dd =>
        have e : s' = s.goto i (.loaded u dd) [.got i u dd] := by
          show s.act _ _ _ _ = _; unfold CacheThreads.act; rw [hpc]; simp only [ho]
        rw [e]
        exact ⟨hc, quiet s _ _ rfl (by simp) (by simp [hne]), [.got i u dd], rfl, by simp, by simp [hne.symm]⟩
      | error e0 =>
        have e : s' = s.goto i .idle [.returned i u (.error .jsonLd)] := by
          show s.act _ _ _ _ = _; unfold CacheThreads.act; rw [hpc]; simp only [ho]
        rw [e]
        exact ⟨hc, quiet s _ _ rfl (by simp) (by simp), [.returned i u (.error .jsonLd)], rfl, by simp [hne.symm], by simp⟩
    | call secure url => exact same (by show s.act _ _ _ _ = _; unfold CacheThreads.act; rw [hpc])
    | step => exact same (by show s.act _ _ _ _ = _; unfold CacheThreads.act; rw [hpc])
  | loaded u dd =>
    have hne : u ≠ url := fun h => (hq i).2 dd (h ▸ hpc)
    cases d with
    | step =>
      have e : s' = ({ s with cache := s.cache.dset u dd } : CacheThreads J).goto i (.present u) [] := by
        show s.act _ _ _ _ = _; unfold CacheThreads.act; rw [hpc]
      rw [e]
      refine ⟨?_, quiet { s with cache := s.cache.dset u dd } _ _ rfl (by simp) (by simp), [], rfl, by simp, by simp⟩
      show (s.cache.dset u dd).dget url = _
      rw [PyDict.dget_dset, if_neg hne.symm, hc]
    | call secure url => exact same (by show s.act _ _ _ _ = _; unfold CacheThreads.act; rw [hpc])
    | load net => exact same (by show s.act _ _ _ _ = _; unfold CacheThreads.act; rw [hpc])
  | present u =>
    cases d with
    | step =>
      have e : s' = s.goto i .idle [.returned i u (.ok (s.cache.dget u))] := by
        show s.act _ _ _ _ = _; unfold CacheThreads.act; rw [hpc]
      rw [e]
      refine ⟨hc, quiet s _ _ rfl (by simp) (by simp), [.returned i u (.ok (s.cache.dget u))], rfl, ?_, by simp⟩
      intro j r hj
      rw [List.mem_singleton] at hj
      injection hj with _ h2 h3
      rw [h3, ← h2, hc]
    | call secure url => exact same (by show s.act _ _ _ _ = _; unfold CacheThreads.act; rw [hpc])
    | load net => exact same (by show s.act _ _ _ _ = _; unfold CacheThreads.act; rw [hpc])

theorem settled_acts {bracketOk : List Char → Bool} {lt : LinkTools} {url : String} {doc : RemoteDoc J} (ds : List (Nat × CacheDo J)) :
    ∀ {s : CacheThreads J}, s.cache.dget url = some doc → NotLoading url s → ∃ new, (s.acts bracketOk lt ds).log = new ++ s.log ∧
      (∀ j r, CacheEvent.returned j url r ∈ new → r = .ok (some doc)) ∧ ∀ j d', CacheEvent.got j url d' ∉ new := by
  induction ds with
  | nil => intro s _ _; exact ⟨[], rfl, by simp, by simp⟩
  | cons x ds ih =>
    intro s hc hq
    obtain ⟨h1, h2, new, h3, h4, h5⟩ := settled_act (bracketOk := bracketOk) (lt := lt) hc hq x.1 x.2
    obtain ⟨new', h6, h7, h8⟩ := ih h1 h2
    refine ⟨new' ++ new, by rw [CacheThreads.acts, h6, h3, List.append_assoc], ?_, ?_⟩
    · intro j r hj
      rcases List.mem_append.1 hj with h | h
      exacts [h7 j r h, h4 j r h]
    · intro j d' hj
      rcases List.mem_append.1 hj with h | h
      exacts [h8 j d' h, h5 j d' h]

/-- **C106 (partial: calls that begin when no other one is under way).** Once a call for the url has returned a document and no call is under way,
there is one document that all later calls for the url return, however the threads are interleaved, and it is not loaded again. -/
theorem cache_settles_partial (bracketOk : List Char → Bool) (lt : LinkTools) (ds more : List (Nat × CacheDo J)) (i : Nat) (url : String)
    (d : Option (RemoteDoc J)) :
    let s := CacheThreads.acts bracketOk lt {} ds
    (∀ j, s.pc j = .idle) → .returned i url (.ok d) ∈ s.log →
    ∃ doc new, (s.acts bracketOk lt more).log = new ++ s.log ∧
      (∀ j r, CacheEvent.returned j url r ∈ new → r = .ok (some doc)) ∧ ∀ j d', CacheEvent.got j url d' ∉ new := by
  intro s hq hr
  have h := CacheInv.acts (bracketOk := bracketOk) (lt := lt) ds CacheInv.start
  obtain ⟨doc, hd⟩ := Option.ne_none_iff_exists'.1 (h.kept i url d hr)
  exact ⟨doc, settled_acts more hd (fun j => by rw [hq j]; exact ⟨by simp, by simp⟩)⟩

/-! ### One thread at a time -/

/-- The steps of one uninterrupted call. -/
def wholeCall (i : Nat) (l : Load J) : List (Nat × CacheDo J) := [(i, .call l.secure l.url), (i, .load l.net), (i, .step), (i, .step)]

/-- What the events say of the outcome of a call. -/
def outcomeOf : Outcome (RemoteDoc J) → Outcome (Option (RemoteDoc J))
  | .ok d => .ok (some d)
  | .error e => .error e

/-- **C106: uninterrupted calls are the sequential ones.** A call that is not interrupted does what `cached_history` (C59) describes. -/
theorem whole_call (bracketOk : List Char → Bool) (lt : LinkTools) (s : CacheThreads J) (i : Nat) (hi : s.pc i = .idle) (l : Load J) :
    let s' := s.acts bracketOk lt (wholeCall i l)
    let r := cachedCall bracketOk lt s.cache l
    s'.cache = r.1 ∧ s'.pc = s.pc ∧ s'.log.head? = some (.returned i l.url (outcomeOf r.2.1)) := by
  intro s' r
  have hpc : Function.update s.pc i .idle = s.pc := by rw [← hi]; exact Function.update_eq_self i s.pc
  cases hg : s.cache.dget l.url with
  | some d =>
    have hr : r = (s.cache, .ok d, []) := by show cachedCall _ _ _ _ = _; unfold cachedCall; rw [hg]
    rw [hr]
    have e : s' = { s with pc := s.pc, log := .returned i l.url (.ok (some d)) :: .called i l.url :: s.log } := by
      show s.acts _ _ _ = _
      simp [wholeCall, CacheThreads.acts, CacheThreads.act, CacheThreads.goto, hi, hg, hpc]
    rw [e]; exact ⟨rfl, rfl, rfl⟩
  | none =>
    rcases hl : loaderGet bracketOk lt l.secure l.url l.net with ⟨o, rs⟩
    cases o with
    | ok d =>
      have hr : r = (s.cache.dset l.url d, .ok d, rs) := by show cachedCall _ _ _ _ = _; unfold cachedCall; rw [hg]; simp only [hl]
      rw [hr]
      have e : s' = ⟨s.cache.dset l.url d, s.pc, .returned i l.url (.ok (some d)) :: .got i l.url d :: .called i l.url :: s.log⟩ := by
        show s.acts _ _ _ = _
        simp [wholeCall, CacheThreads.acts, CacheThreads.act, CacheThreads.goto, hi, hg, hl, hpc, PyDict.dget_dset]
      rw [e]; exact ⟨rfl, rfl, rfl⟩
    | error e0 =>
      have hr : r = (s.cache, .error .jsonLd, rs) := by show cachedCall _ _ _ _ = _; unfold cachedCall; rw [hg]; simp only [hl, asJsonLdError]
      rw [hr]
      have e : s' = ⟨s.cache, s.pc, .returned i l.url (.error .jsonLd) :: .called i l.url :: s.log⟩ := by
        show s.acts _ _ _ = _
        simp [wholeCall, CacheThreads.acts, CacheThreads.act, CacheThreads.goto, hi, hg, hl, hpc]
      rw [e]; exact ⟨rfl, rfl, rfl⟩

/-- Non-vacuity: after one whole call no call is under way and a document has been returned. -/
example (bracketOk : List Char → Bool) (lt : LinkTools) (url : String) (a : Response J) (da : RemoteDoc J)
    (ha : (loaderGet bracketOk lt false url (.ok a)).1 = .ok da) :
    let s := CacheThreads.acts bracketOk lt {} (wholeCall 0 ⟨false, url, .ok a⟩)
    (∀ j, s.pc j = .idle) ∧ .returned 0 url (.ok (some da)) ∈ s.log := by
  have hr : cachedCall bracketOk lt [] (Load.mk false url (.ok a)) = ([].dset url da, .ok da, (loaderGet bracketOk lt false url (.ok a)).2) := by
    unfold cachedCall
    simp only [List.dget]
    rcases hl : loaderGet bracketOk lt false url (.ok a) with ⟨o, rs⟩
    rw [hl] at ha
    simp only at ha
    subst ha
    rfl
  obtain ⟨-, h1, h2⟩ := whole_call bracketOk lt ({} : CacheThreads J) 0 rfl ⟨false, url, .ok a⟩
  rw [show ({} : CacheThreads J).cache = [] from rfl, hr] at h2
  exact ⟨fun j => by rw [h1], List.mem_of_mem_head? (Option.mem_def.2 h2)⟩

/-! ### What can go wrong -/

/-- **C106 is false**: two threads that call for the same url at the same time both load it; the first call returns the document of the first load,
every other one that of the second. -/
theorem cache_twice_counterexample (bracketOk : List Char → Bool) (lt : LinkTools) (url : String) (a b : Response J) (da db : RemoteDoc J)
    (ha : (loaderGet bracketOk lt false url (.ok a)).1 = .ok da) (hb : (loaderGet bracketOk lt false url (.ok b)).1 = .ok db) :
    (CacheThreads.acts bracketOk lt {} [(0, .call false url), (1, .call false url), (0, .load (.ok a)), (1, .load (.ok b)), (0, .step), (0, .step),
      (1, .step), (1, .step), (0, .call false url), (0, .step)]).log =
    [.returned 0 url (.ok (some db)), .called 0 url, .returned 1 url (.ok (some db)), .returned 0 url (.ok (some da)), .got 1 url db, .got 0 url da,
      .called 1 url, .called 0 url] := by
  simp [CacheThreads.acts, CacheThreads.act, CacheThreads.goto, ha, hb, PyDict.dget_dset, List.dget]

/-- The documents really differ: two answers of a server. -/
example (lt : LinkTools) :
    (loaderGet (fun _ => true) lt false "http://a.example/c" (.ok ⟨none, "http://a.example/c", .ok 1, none⟩)).1 = .ok ⟨"application/octet-stream", none, "http://a.example/c", 1⟩ ∧
    (loaderGet (fun _ => true) lt false "http://a.example/c" (.ok ⟨none, "http://a.example/c", .ok 2, none⟩)).1 = .ok ⟨"application/octet-stream", none, "http://a.example/c", 2⟩ := by
  constructor <;> rfl

end Verif.Props
