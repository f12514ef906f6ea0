import Verif.Jsonld.Get
import Verif.Props.Package

/-!
# The request jsonld_get makes and what it returns (C139)
-/
namespace Verif.Props.Get
open Verif Verif.Jsonld

/-! ### Specification -/

/-- The caller names each header once (headers do not depend on case). -/
def NamesOnce (lower : String → String) (d : HttpHeaders) : Prop := (d.map fun p => lower p.1).Nodup

/-- What `jsonld_get` asks for unless told otherwise. -/
def jsonTypes : String := "application/ld+json, application/activity+json, application/json"

/-! ### Lemmas -/

/-- The last value given for a header. -/
def lastOf (lower : String → String) (l : HttpHeaders) (n : String) : Option (Option String) :=
  (dictOf (l.map fun p => (lower p.1, p.2))).dget (lower n)

theorem lastOf_snoc (lower : String → String) (l : HttpHeaders) (k : String) (v : Option String) (n : String) :
    lastOf lower (l ++ [(k, v)]) n = if lower n = lower k then some v else lastOf lower l n := by
  unfold lastOf
  rw [List.map_append, List.map_singleton, Verif.Props.dictOf_append, PyDict.dget_dset]

theorem lastOf_miss (lower : String → String) (a b : HttpHeaders) (n : String) (h : ∀ p ∈ b, lower p.1 ≠ lower n) :
    lastOf lower (a ++ b) n = lastOf lower a n := by
  induction b using List.reverseRecOn with
  | nil => rw [List.append_nil]
  | append_singleton b p ih =>
    rw [← List.append_assoc, lastOf_snoc, if_neg (fun e => h p (by simp) e.symm)]
    exact ih fun q hq => h q (by simp [hq])

theorem lastOf_hit (lower : String → String) (a b : HttpHeaders) (k : String) (v : Option String) (n : String) (hk : lower k = lower n)
    (h : ∀ p ∈ b, lower p.1 ≠ lower n) : lastOf lower (a ++ (k, v) :: b) n = some v := by
  have : a ++ (k, v) :: b = (a ++ [(k, v)]) ++ b := by simp
  rw [this, lastOf_miss _ _ _ _ h, lastOf_snoc, if_pos hk.symm]

theorem dset_fresh (acc : HttpHeaders) (k : String) (v : Option String) (h : k ∉ acc.dkeys) : acc.dset k v = acc ++ [(k, v)] := by
  induction acc with
  | nil => rfl
  | cons p acc ih =>
    obtain ⟨k', v'⟩ := p
    simp only [List.dkeys, List.map_cons, List.mem_cons, not_or] at h
    simp only [List.dset, List.cons_append]
    rw [if_neg (fun e => h.1 e.symm), ih h.2]

theorem merged (d acc : HttpHeaders) (a : Option String) (hacc : "Accept" ∉ acc.dkeys) (hd : (acc ++ d).dkeys.Nodup) :
    List.dmerge (("Accept", a) :: acc) d = ("Accept", (d.dget "Accept").getD a) :: (acc ++ d.filter fun p => p.1 != "Accept") := by
  induction d generalizing acc a with
  | nil => simp [List.dmerge, List.dget]
  | cons p d ih =>
    obtain ⟨k, v⟩ := p
    have hstep : List.dmerge (("Accept", a) :: acc) ((k, v) :: d) = List.dmerge ((("Accept", a) :: acc : HttpHeaders).dset k v) d := rfl
    rw [hstep]
    have hnd : (acc.dkeys ++ (k :: d.dkeys)).Nodup := by simpa [List.dkeys] using hd
    have hkacc : k ∉ acc.dkeys := fun hm => (List.nodup_append.1 hnd).2.2 k hm k (by simp) rfl
    have hkd : k ∉ d.dkeys := (List.nodup_cons.1 (List.nodup_append.1 hnd).2.1).1
    by_cases hk : k = "Accept"
    · subst hk
      have : ((("Accept", a) :: acc : HttpHeaders).dset "Accept" v) = ("Accept", v) :: acc := by simp [List.dset]
      rw [this, ih acc v hacc (by
        have := List.nodup_append.1 hnd
        simpa [List.dkeys] using List.nodup_append.2 ⟨this.1, (List.nodup_cons.1 this.2.1).2, fun x hx y hy => this.2.2 x hx y (List.mem_cons_of_mem _ hy)⟩)]
      have hnone : d.dget "Accept" = none := PyDict.dget_eq_none.2 hkd
      rw [hnone]
      simp [List.dget]
    · have : ((("Accept", a) :: acc : HttpHeaders).dset k v) = ("Accept", a) :: (acc ++ [(k, v)]) := by
        rw [← dset_fresh acc k v hkacc]
        simp only [List.dset]
        rw [if_neg (fun e => hk e.symm)]
      rw [this, ih (acc ++ [(k, v)]) a ?_ ?_]
      · simp [List.dget, hk]
      · simp [List.dkeys] at hacc ⊢
        exact ⟨hacc, fun e => hk e.symm⟩
      · simpa [List.dkeys] using hd

theorem getHeaders_eq (d : HttpHeaders) (hd : d.dkeys.Nodup) :
    getHeaders (some d) = ("Accept", (d.dget "Accept").getD (some jsonTypes)) :: d.filter fun p => p.1 != "Accept" := by
  have := merged d [] (some jsonTypes) (by simp [List.dkeys]) (by simpa using hd)
  exact this

theorem keys_nodup {lower : String → String} {d : HttpHeaders} (h : NamesOnce lower d) : d.dkeys.Nodup := by
  unfold NamesOnce at h
  have : (d.map fun p => lower p.1) = d.dkeys.map lower := by simp [List.dkeys]
  rw [this] at h
  exact List.Nodup.of_map _ h

theorem once {lower : String → String} {d : HttpHeaders} (h : NamesOnce lower d) {k k' : String} {v v' : Option String}
    (hm : (k, v) ∈ d) (hm' : (k', v') ∈ d) (e : lower k = lower k') : (k, v) = (k', v') :=
  List.inj_on_of_nodup_map h hm hm' e

/-! ### C139 -/

/-- C139: a header the caller gives (each once) is on the wire with the caller's value, in whatever case it is written, and one given as None is not sent at
all; a header the caller does not give is on the wire as without the caller's headers. -/
theorem caller_headers_partial (lower : String → String) (session d : HttpHeaders) (h : NamesOnce lower d) :
    (∀ k v n, (k, v) ∈ d → lower k = lower n → wire lower session (getHeaders (some d)) n = v) ∧
    (∀ n, (∀ k v, (k, v) ∈ d → lower k ≠ lower n) → wire lower session (getHeaders (some d)) n = wire lower session (getHeaders none) n) := by
  have hw : ∀ g n, wire lower session g n = (lastOf lower (session ++ g) n).join := fun _ _ => rfl
  refine ⟨fun k v n hm hn => ?_, fun n hn => ?_⟩
  · rw [hw, getHeaders_eq d (keys_nodup h)]
    by_cases hk : k = "Accept"
    · subst hk
      have hv : d.dget "Accept" = some v := PyDict.dget_of_mem (keys_nodup h) hm
      rw [hv, Option.getD_some, lastOf_hit _ _ _ _ _ _ hn]
      · rfl
      · rintro ⟨k', v'⟩ hp e
        have hp' := List.mem_filter.1 hp
        have := once h hp'.1 hm (e.trans hn.symm)
        rw [Prod.mk.injEq] at this
        simp [this.1] at hp'
    · obtain ⟨s, t, hst⟩ := List.append_of_mem (List.mem_filter.2 ⟨hm, by simpa using hk⟩ : (k, v) ∈ d.filter fun p => p.1 != "Accept")
      rw [hst]
      have : session ++ ("Accept", (d.dget "Accept").getD (some jsonTypes)) :: (s ++ (k, v) :: t) =
        (session ++ ("Accept", (d.dget "Accept").getD (some jsonTypes)) :: s) ++ (k, v) :: t := by simp
      rw [this, lastOf_hit _ _ _ _ _ _ hn]
      · rfl
      · intro p hp e
        have hsub : (List.map (fun p => lower p.1) (d.filter fun p => p.1 != "Accept")).Nodup :=
          List.Nodup.sublist (List.Sublist.map _ List.filter_sublist) h
        rw [hst, List.map_append, List.map_cons] at hsub
        have := (List.nodup_cons.1 (List.nodup_append.1 hsub).2.1).1
        exact this (List.mem_map.2 ⟨p, hp, e.trans hn.symm⟩)
  · rw [hw, hw, getHeaders_eq d (keys_nodup h)]
    have hno : getHeaders none = [("Accept", some jsonTypes)] := rfl
    have hmiss : ∀ p ∈ d.filter (fun p => p.1 != "Accept"), lower p.1 ≠ lower n := fun p hp => hn p.1 p.2 (List.mem_filter.1 hp).1
    rw [hno]
    have : session ++ ("Accept", (d.dget "Accept").getD (some jsonTypes)) :: d.filter (fun p => p.1 != "Accept") =
        (session ++ [("Accept", (d.dget "Accept").getD (some jsonTypes))]) ++ d.filter (fun p => p.1 != "Accept") := by simp
    rw [this, lastOf_miss _ _ _ _ hmiss, lastOf_snoc, lastOf_snoc]
    by_cases hA : lower n = lower "Accept"
    · have : d.dget "Accept" = none := by
        cases hd : d.dget "Accept" with
        | none => rfl
        | some v => exact absurd hA.symm (hn "Accept" v (PyDict.dget_mem hd))
      rw [this, if_pos hA, if_pos hA]; rfl
    · rw [if_neg hA, if_neg hA]

/-- C139: without headers, or with an empty dict, the request asks for JSON-LD whatever the session asks for, and has the other headers of the session. -/
theorem default_headers (lower : String → String) (session : HttpHeaders) (n : String) :
    wire lower session (getHeaders none) n = (if lower n = lower "Accept" then some jsonTypes else wire lower session [] n) ∧
    wire lower session (getHeaders (some [])) n = wire lower session (getHeaders none) n := by
  have hw : ∀ g n, wire lower session g n = (lastOf lower (session ++ g) n).join := fun _ _ => rfl
  refine ⟨?_, rfl⟩
  have hno : getHeaders none = [("Accept", some jsonTypes)] := rfl
  rw [hw, hno, lastOf_snoc]
  split_ifs
  · rfl
  · rw [hw, List.append_nil]

/-- ASCII letters in lower case. -/
def asciiLower (s : String) : String := String.ofList (s.toList.map Char.toLower)

/-- C139 (counterexample): a caller that writes one header in two ways gets the last one from `requests`, but not from `jsonld_get`: there `Accept` keeps
the place the default had, in front of all others. -/
theorem caller_headers_counterexample : ∃ d : HttpHeaders, d.dkeys.Nodup ∧ wire asciiLower [] d "Accept" = some "text/html" ∧
    wire asciiLower [] (getHeaders (some d)) "Accept" = some "text/plain" :=
  ⟨[("accept", some "text/plain"), ("Accept", some "text/html")], by decide +kernel, by decide +kernel, by decide +kernel⟩

/-- Non-vacuity: a caller's headers, one of them the default one in lower case and one removed. -/
example : NamesOnce asciiLower [("accept", some "text/html"), ("X-A", some "1"), ("User-Agent", none)] ∧
    (wire asciiLower [("User-Agent", some "requests"), ("Accept", some "*/*"), ("Connection", some "keep-alive")]
      (getHeaders (some [("accept", some "text/html"), ("X-A", some "1"), ("User-Agent", none)]))) "ACCEPT" = some "text/html" ∧
    (wire asciiLower [("User-Agent", some "requests"), ("Accept", some "*/*"), ("Connection", some "keep-alive")]
      (getHeaders (some [("accept", some "text/html"), ("X-A", some "1"), ("User-Agent", none)]))) "user-agent" = none ∧
    (wire asciiLower [("User-Agent", some "requests"), ("Accept", some "*/*"), ("Connection", some "keep-alive")]
      (getHeaders (some [("accept", some "text/html"), ("X-A", some "1"), ("User-Agent", none)]))) "Connection" = some "keep-alive" := by
  unfold NamesOnce
  decide +kernel

/-- C139: one request is made, with these headers; whatever its status, the answer is the response itself or, unless `json=False`, the data in it; an
exception of the request or of decoding is the caller's. -/
theorem get_reply_partial (lower : String → String) (session : HttpHeaders) (net : HttpNet) (url : String) (headers : Option HttpHeaders) :
    (∀ resp, net url (wire lower session (getHeaders headers)) = .ok resp →
      jsonldGet lower session net url headers false = .ok (.raw resp) ∧
      (∀ t, resp.json = .ok t → jsonldGet lower session net url headers = .ok (.data t)) ∧
      (∀ e, resp.json = .error e → jsonldGet lower session net url headers = .error e)) ∧
    (∀ e json, net url (wire lower session (getHeaders headers)) = .error e → jsonldGet lower session net url headers json = .error e) := by
  refine ⟨fun resp hr => ⟨?_, fun t ht => ?_, fun e he => ?_⟩, fun e json he => ?_⟩ <;> unfold jsonldGet
  · simp only [hr]; rfl
  · simp only [hr, ht]; rfl
  · simp only [hr, he]; rfl
  · simp only [he]

/-- C139 (counterexample): data is returned for a response that reports failure: the status is never looked at. -/
theorem get_status_counterexample (lower : String → String) (session : HttpHeaders) (t : Tree) :
    ∃ net : HttpNet, (∀ u h, ∃ r, net u h = .ok r ∧ r.status = 404) ∧ ∀ url headers, jsonldGet lower session net url headers = .ok (.data t) :=
  ⟨fun _ _ => .ok ⟨404, .ok t⟩, fun _ _ => ⟨_, rfl, rfl⟩, fun _ _ => rfl⟩

end Verif.Props.Get
