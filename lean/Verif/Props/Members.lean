import Verif.Jsonld.Members
import Mathlib.Data.List.Induction

/-!
# Property lists of classes and the history of calls (C83)
-/
namespace Verif.Props
open Verif Verif.Jsonld Verif.Jsonld.Members

variable {C : Type} [DecidableEq C]

/-! ### Specification -/

/-- The list has exactly the properties defined in the class and its ancestors, each once. -/
def HasProperties (F : Family C) (c : C) (l : List String) : Prop := l.Nodup ∧ ∀ q, q ∈ l ↔ ∃ a ∈ F.mro c, q ∈ F.own a

/-- Every mro begins with its class. -/
def MroStarts (F : Family C) : Prop := ∀ c, ∃ rest, F.mro c = c :: rest

/-- The class a call is about. -/
def Call.about : Call C → C
  | .properties _ c => c
  | .name _ c => c
  | .registration _ c => c

/-- Nothing was asked about a proper ancestor of `c`. -/
def AncestorsUnused (F : Family C) (h : List (Call C)) (c : C) : Prop := ∀ x ∈ h, Call.about x ∈ F.mro c → Call.about x = c

/-! ### What is cached -/

omit [DecidableEq C] in
theorem allProperties_has (F : Family C) (c : C) : HasProperties F c (allProperties F c) :=
  ⟨List.nodup_dedup _, fun q => by unfold allProperties; rw [List.mem_dedup, List.mem_flatMap]⟩

theorem getPropertyName_state (F : Family C) (r : Bool) (c : C) (s : State C) :
    (getPropertyName F r c s).2 = s ∨ ∃ n, F.own c = [n] ∧ (getPropertyName F r c s).2 = { s with name := s.name.put c n } := by
  unfold getPropertyName
  split
  · exact .inl rfl
  · split
    · rename_i n hn; exact .inr ⟨n, hn, rfl⟩
    · exact .inl rfl

theorem put_put {V : Type} (a : Members.Attr C V) (c : C) (v w : V) : (a.put c v).put c w = a.put c w := by
  funext d; unfold Attr.put; by_cases h : d = c <;> simp [h]

theorem getPropertyName_true (F : Family C) (c : C) (s : State C) :
    (∃ n, F.own c = [n] ∧ getPropertyName F true c s = (.ok n, { s with name := s.name.put c n })) ∨
    ((∀ n, F.own c ≠ [n]) ∧ getPropertyName F true c s = (.error .valueError, s)) := by
  have e : getPropertyName F true c s = match F.own c with
      | [n] => (.ok n, { s with name := s.name.put c n })
      | _ => (.error .valueError, s) := by
    unfold getPropertyName
    cases s.name.find F c <;> rfl
  rw [e]
  rcases hc : F.own c with _ | ⟨n, _ | ⟨m, l⟩⟩
  · exact .inr ⟨fun n h => (by cases h), rfl⟩
  · exact .inl ⟨n, rfl, rfl⟩
  · exact .inr ⟨fun n h => (by cases h), rfl⟩

/-- What making sure of the name does. -/
theorem ensureName_cases (F : Family C) (r : Bool) (c : C) (s : State C) :
    (∃ v, s.name.find F c = some v ∧ r = false ∧ ensureName F r c s = (.ok (), s)) ∨
    (((s.name.find F c = none) ∨ r = true) ∧
      ((∃ n, F.own c = [n] ∧ ensureName F r c s = (.ok (), { s with name := s.name.put c n })) ∨
       ((∀ n, F.own c ≠ [n]) ∧ ensureName F r c s = (.error .valueError, s)))) := by
  have key : (∃ n, F.own c = [n] ∧ (match getPropertyName F true c s with
      | (.error e, s') => (.error e, s')
      | (.ok n, s') => (.ok (), { s' with name := s'.name.put c n }) : Outcome Unit × State C) = (.ok (), { s with name := s.name.put c n })) ∨
       ((∀ n, F.own c ≠ [n]) ∧ (match getPropertyName F true c s with
      | (.error e, s') => (.error e, s')
      | (.ok n, s') => (.ok (), { s' with name := s'.name.put c n }) : Outcome Unit × State C) = (.error .valueError, s)) := by
    rcases getPropertyName_true F c s with ⟨n, hn, h⟩ | ⟨hn, h⟩
    · exact .inl ⟨n, hn, by rw [h]; simp only [put_put]⟩
    · exact .inr ⟨hn, by rw [h]⟩
  unfold ensureName
  rcases hf : s.name.find F c with _ | v
  · exact .inr ⟨.inl rfl, key⟩
  · cases r
    · exact .inl ⟨v, rfl, rfl, rfl⟩
    · exact .inr ⟨.inr rfl, key⟩

theorem find_self {V : Type} {F : Family C} (hm : MroStarts F) (a : Members.Attr C V) (c : C) (v : V) : (a.put c v).find F c = some v := by
  obtain ⟨rest, hr⟩ := hm c
  unfold Attr.find Attr.put
  rw [hr, List.findSome?_cons]; simp

omit [DecidableEq C] in
theorem find_own {V : Type} {F : Family C} (hm : MroStarts F) (a : Members.Attr C V) {c : C} {v : V} (h : a c = some v) : a.find F c = some v := by
  obtain ⟨rest, hr⟩ := hm c
  unfold Attr.find
  rw [hr, List.findSome?_cons, h]

/-- If no proper ancestor has the attribute, what is found is the class's own. -/
theorem find_only {V : Type} {F : Family C} (a : Members.Attr C V) {c : C} (h : ∀ d ∈ F.mro c, d ≠ c → a d = none) {v : V}
    (hf : a.find F c = some v) : a c = some v := by
  obtain ⟨d, hd, hv⟩ := List.exists_of_findSome?_eq_some hf
  by_cases hdc : d = c
  · rw [← hdc]; exact hv
  · rw [h d hd hdc] at hv; cases hv

/-- What the caches hold after a history. -/
structure Cached (F : Family C) (h : List (Call C)) (s : State C) : Prop where
  properties : ∀ d v, s.properties d = some v → v = allProperties F d ∧ ∃ x ∈ h, Call.about x = d
  name : ∀ d n, s.name d = some n → F.own d = [n] ∧ ∃ x ∈ h, Call.about x = d
  registration : ∀ d v, s.registration d = some v → ∃ x ∈ h, Call.about x = d
  /-- a registration that was made while no ancestor had been used is that of the class -/
  owned : ∀ d v, AncestorsUnused F h d → s.registration d = some v → ∃ n, F.own d = [n] ∧ v = some (d, n)

omit [DecidableEq C] in
theorem lookup_own {F : Family C} (hm : MroStarts F) {c : C} {n : String} (h : F.own c = [n]) : lookup F c n = some (c, n) := by
  obtain ⟨rest, hr⟩ := hm c
  unfold lookup
  rw [hr, List.find?_cons]
  have : (F.own c).contains n = true := by rw [h]; simp
  rw [this]; rfl

theorem cached_after {F : Family C} (hm : MroStarts F) (h : List (Call C)) : Cached F h (after F h) := by
  induction h using List.reverseRecOn with
  | nil => exact ⟨(by intro d v hv; cases hv), (by intro d v hv; cases hv), (by intro d v hv; cases hv), (by intro d v _ hv; cases hv)⟩
  | append_singleton h x ih =>
    have hst : after F (h ++ [x]) = Call.run F (after F h) x := by unfold after; rw [List.foldl_append]; rfl
    rw [hst]
    generalize after F h = s at ih
    have old : ∀ {d}, (∃ x ∈ h, Call.about x = d) → ∃ y ∈ h ++ [x], Call.about y = d := by
      rintro d ⟨y, hy, hd⟩; exact ⟨y, List.mem_append_left _ hy, hd⟩
    have new : ∃ y ∈ h ++ [x], Call.about y = Call.about x := ⟨x, by simp, rfl⟩
    have unused : ∀ {d}, AncestorsUnused F (h ++ [x]) d → AncestorsUnused F h d := fun hd y hy => hd y (List.mem_append_left _ hy)
    -- states that differ from `s` in names only
    have nameStep : ∀ n c, c = Call.about x → F.own c = [n] → Cached F (h ++ [x]) { s with name := s.name.put c n } := by
      rintro n c rfl hn
      refine ⟨fun d v hv => ?_, fun d m hm => ?_, fun d v hv => old (ih.registration d v hv), fun d v hd hv => ih.owned d v (unused hd) hv⟩
      · obtain ⟨h1, h2⟩ := ih.properties d v hv; exact ⟨h1, old h2⟩
      · simp only [Attr.put] at hm
        by_cases hdc : d = Call.about x
        · rw [if_pos hdc] at hm; injection hm with hm; subst hm; subst hdc; exact ⟨hn, new⟩
        · rw [if_neg hdc] at hm; obtain ⟨h1, h2⟩ := ih.name d m hm; exact ⟨h1, old h2⟩
    have same : Cached F (h ++ [x]) s := by
      refine ⟨fun d v hv => ?_, fun d m hm => ?_, fun d v hv => old (ih.registration d v hv), fun d v hd hv => ih.owned d v (unused hd) hv⟩
      · obtain ⟨h1, h2⟩ := ih.properties d v hv; exact ⟨h1, old h2⟩
      · obtain ⟨h1, h2⟩ := ih.name d m hm; exact ⟨h1, old h2⟩
    cases x with
    | properties r c =>
      show Cached F _ (getProperties F r c s).2
      unfold getProperties
      split
      · exact same
      · refine ⟨fun d v hv => ?_, same.name, same.registration, same.owned⟩
        simp only [Attr.put] at hv
        by_cases hdc : d = c
        · rw [if_pos hdc] at hv; injection hv with hv; subst hdc; exact ⟨hv.symm, new⟩
        · rw [if_neg hdc] at hv; exact same.properties d v hv
    | name r c =>
      show Cached F _ (getPropertyName F r c s).2
      rcases getPropertyName_state F r c s with h1 | ⟨n, hn, h1⟩
      · rw [h1]; exact same
      · rw [h1]; exact nameStep n c rfl hn
    | registration r c =>
      show Cached F _ (getRegistration F r c s).2
      have step : ∀ s', Cached F (h ++ [.registration r c]) s' → (∀ d, d ≠ c → s'.name d = s.name d) →
          ensureName F r c s = (.ok (), s') → Cached F (h ++ [.registration r c]) (getRegistration F r c s).2 := by
        intro s' hc hsn he
        have hsome : ∃ n, s'.name.find F c = some n := by
          rcases ensureName_cases F r c s with ⟨w, h1, -, h2⟩ | ⟨-, ⟨n, hn, h2⟩ | ⟨-, h2⟩⟩
          · rw [he] at h2; injection h2 with _ h2; exact ⟨w, by rw [h2]; exact h1⟩
          · rw [he] at h2; injection h2 with _ h2; exact ⟨n, by rw [h2]; exact find_self hm _ _ _⟩
          · rw [he] at h2; injection h2 with h2 _; cases h2
        unfold getRegistration
        rw [he]
        simp only
        split
        · exact hc
        · refine ⟨hc.properties, hc.name, fun d v hv => ?_, fun d v hd hv => ?_⟩
          · simp only [Attr.put] at hv
            by_cases hdc : d = c
            · subst hdc; exact new
            · rw [if_neg hdc] at hv; exact hc.registration d v hv
          · simp only [Attr.put] at hv
            by_cases hdc : d = c
            · subst hdc
              rw [if_pos rfl] at hv
              injection hv with hv
              -- the name is the class's own
              have hno : ∀ a ∈ F.mro d, a ≠ d → s'.name a = none := by
                intro a ha had
                rcases hsa : s'.name a with _ | m
                · rfl
                · exfalso
                  rw [hsn a had] at hsa
                  obtain ⟨-, y, hy, hya⟩ := ih.name a m hsa
                  exact had (hya ▸ hd y (List.mem_append_left _ hy) (hya.symm ▸ ha))
              obtain ⟨n, hn⟩ := hsome
              obtain ⟨hown, -⟩ := hc.name d n (find_only _ hno hn)
              refine ⟨n, hown, ?_⟩
              rw [← hv, hn]
              exact lookup_own hm hown
            · rw [if_neg hdc] at hv; exact hc.owned d v hd hv
      rcases ensureName_cases F r c s with ⟨w, h1, -, h2⟩ | ⟨-, ⟨n, hn, h2⟩ | ⟨hn, h2⟩⟩
      · exact step s same (fun _ _ => rfl) h2
      · refine step _ (nameStep n c rfl hn) (fun d hd => ?_) h2
        simp only [Attr.put, if_neg hd]
      · unfold getRegistration
        rw [h2]; exact same

/-! ### C83 -/

/-- With `refresh=True` the properties of a class do not depend on the history. -/
theorem refresh_exact (F : Family C) (h : List (Call C)) (c : C) : HasProperties F c (getProperties F true c (after F h)).1 := by
  have : (getProperties F true c (after F h)).1 = allProperties F c := by
    unfold getProperties
    cases (after F h).properties.find F c <;> rfl
  rw [this]; exact allProperties_has F c

/-- Without it they are those of some class of the mro, namely the class itself if it was refreshed before or if nothing was asked about its
ancestors before. -/
theorem properties_exact_partial {F : Family C} (hm : MroStarts F) (h : List (Call C)) (c : C)
    (hc : AncestorsUnused F h c ∨ Call.properties true c ∈ h) : HasProperties F c (getProperties F false c (after F h)).1 := by
  have hcache := cached_after hm h
  rcases hf : (after F h).properties.find F c with _ | v
  · have : (getProperties F false c (after F h)).1 = allProperties F c := by unfold getProperties; rw [hf]
    rw [this]; exact allProperties_has F c
  · have e : (getProperties F false c (after F h)).1 = v := by unfold getProperties; rw [hf]
    rw [e]
    have own : (after F h).properties c = some v → HasProperties F c v := fun hv => by
      rw [(hcache.properties c v hv).1]; exact allProperties_has F c
    rcases hc with hc | hc
    · refine own (find_only _ (fun d hd hdc => ?_) hf)
      rcases hsa : (after F h).properties d with _ | w
      · rfl
      · exfalso
        obtain ⟨-, y, hy, hya⟩ := hcache.properties d w hsa
        exact hdc (hya ▸ hc y hy (hya.symm ▸ hd))
    · have hset : ∃ w, (after F h).properties c = some w := by
        clear hf e hcache own
        induction h using List.reverseRecOn with
        | nil => cases hc
        | append_singleton h x ih =>
          have hst : after F (h ++ [x]) = Call.run F (after F h) x := by unfold after; rw [List.foldl_append]; rfl
          rw [hst]
          have keep : (∃ w, (after F h).properties c = some w) → ∃ w, (Call.run F (after F h) x).properties c = some w := by
            rintro ⟨w, hw⟩
            cases x with
            | properties r d =>
              show ∃ w, (getProperties F r d (after F h)).2.properties c = some w
              unfold getProperties
              split
              · exact ⟨w, hw⟩
              · simp only [Attr.put]
                split_ifs
                · exact ⟨_, rfl⟩
                · exact ⟨w, hw⟩
            | name r d =>
              show ∃ w, (getPropertyName F r d (after F h)).2.properties c = some w
              rcases getPropertyName_state F r d (after F h) with h1 | ⟨n, -, h1⟩ <;> rw [h1] <;> exact ⟨w, hw⟩
            | registration r d =>
              show ∃ w, (getRegistration F r d (after F h)).2.properties c = some w
              refine ⟨w, ?_⟩
              rw [← hw]
              have hen : (ensureName F r d (after F h)).2.properties = (after F h).properties := by
                rcases ensureName_cases F r d (after F h) with ⟨_, _, _, h2⟩ | ⟨_, ⟨n, _, h2⟩ | ⟨_, h2⟩⟩ <;> rw [h2]
              unfold getRegistration
              rcases he : ensureName F r d (after F h) with ⟨e | u, s'⟩
              · simp only; rw [← hen, he]
              · rw [he] at hen
                simp only
                split
                · rw [← hen]
                · rw [← hen]
          rcases List.mem_append.1 hc with hc | hc
          · exact keep (ih hc)
          · rw [List.mem_singleton] at hc
            subst hc
            show ∃ w, (getProperties F true c (after F h)).2.properties c = some w
            unfold getProperties
            cases (after F h).properties.find F c <;> exact ⟨_, by simp [Attr.put]; rfl⟩
      obtain ⟨w, hw⟩ := hset
      rw [find_own hm _ hw] at hf
      injection hf with hf; subst hf
      exact own hw

/-- C83: the name and the registration of a property class with one property are its own, and a class with none or several raises
ValueError, if nothing was asked about its ancestors before or if `refresh=True`. -/
theorem registration_exact_partial {F : Family C} (hm : MroStarts F) (h : List (Call C)) (c : C) (r : Bool)
    (hc : AncestorsUnused F h c ∨ r = true) :
    (∀ n, F.own c = [n] → (getPropertyName F r c (after F h)).1 = .ok n ∧ (getRegistration F r c (after F h)).1 = .ok (some (c, n))) ∧
    ((∀ n, F.own c ≠ [n]) → (getPropertyName F r c (after F h)).1 = .error .valueError ∧
      (getRegistration F r c (after F h)).1 = .error .valueError) := by
  have hcache := cached_after hm h
  generalize hs : after F h = s at hcache
  have nofind : AncestorsUnused F h c → ∀ v, s.name.find F c = some v → F.own c = [v] := by
    intro hc v hf
    refine (hcache.name c v (find_only _ (fun d hd hdc => ?_) hf)).1
    rcases hsa : s.name d with _ | w
    · rfl
    · exfalso
      obtain ⟨-, y, hy, hya⟩ := hcache.name d w hsa
      exact hdc (hya ▸ hc y hy (hya.symm ▸ hd))
  have noreg : AncestorsUnused F h c → ∀ v, s.registration.find F c = some v → ∃ n, F.own c = [n] ∧ v = some (c, n) := by
    intro hc v hf
    refine hcache.owned c v hc (find_only _ (fun d hd hdc => ?_) hf)
    rcases hsa : s.registration d with _ | w
    · rfl
    · exfalso
      obtain ⟨y, hy, hya⟩ := hcache.registration d w hsa
      exact hdc (hya ▸ hc y hy (hya.symm ▸ hd))
  constructor
  · intro n hn
    constructor
    · unfold getPropertyName
      rcases hf : s.name.find F c with _ | v
      · rw [hn]
      · cases r
        · have := nofind (hc.resolve_right (by simp)) v hf
          rw [hn] at this; injection this with this _
          simp only [this]
        · rw [hn]
    · have key : ∀ s', ensureName F r c s = (.ok (), s') → s'.registration = s.registration → s'.name.find F c = some n →
          (getRegistration F r c s).1 = .ok (some (c, n)) := by
        intro s' he hreg hname
        unfold getRegistration
        rw [he]
        simp only [hreg]
        rcases hf : s.registration.find F c with _ | v
        · simp only [hname]; rw [Option.bind_some, lookup_own hm hn]
        · cases r
          · obtain ⟨m, hm', rfl⟩ := noreg (hc.resolve_right (by simp)) v hf
            rw [hn] at hm'; injection hm' with hm' _
            simp only [hm']
          · simp only [hname]; rw [Option.bind_some, lookup_own hm hn]
      rcases ensureName_cases F r c s with ⟨w, h1, h0, h2⟩ | ⟨-, ⟨m, hm', h2⟩ | ⟨h1, h2⟩⟩
      · refine key s h2 rfl ?_
        have := nofind (hc.resolve_right (by simp [h0])) w h1
        rw [hn] at this; injection this with this _
        rw [h1, this]
      · rw [hn] at hm'; injection hm' with hm' _; subst hm'
        exact key _ h2 rfl (find_self hm _ _ _)
      · exact absurd hn (h1 n)
  · intro hn
    have hfn : s.name.find F c = none ∨ r = true := by
      rcases hf : s.name.find F c with _ | v
      · exact .inl rfl
      · rcases hc with hc | hc
        · exact absurd (nofind hc v hf) (hn v)
        · exact .inr hc
    constructor
    · unfold getPropertyName
      rcases hf : s.name.find F c with _ | v
      · simp only
      · rcases hfn with h1 | h1
        · rw [hf] at h1; cases h1
        · subst h1; simp only
    · rcases ensureName_cases F r c s with ⟨w, h1, h0, h2⟩ | ⟨-, ⟨m, hm', h2⟩ | ⟨h1, h2⟩⟩
      · rcases hfn with h3 | h3
        · rw [h1] at h3; cases h3
        · rw [h0] at h3; cases h3
      · exact absurd hm' (hn m)
      · unfold getRegistration
        rw [h2]

/-- A base class (`false`) with a property "x" and a subclass (`true`) with another one, "y". -/
def twoClasses : Family Bool := ⟨fun b => if b then [true, false] else [false], fun b => if b then ["y"] else ["x"]⟩

/-- C83 is false of the code: if an object of the base class was created first, the properties of the subclass are found to be those of
the base class (so `data()` of its objects leaves out `y`), and a property class is taken for its base class; otherwise they are its
own. -/
theorem properties_depend_on_history :
    (getProperties twoClasses false true (after twoClasses [.properties false false])).1 = ["x"] ∧
    (getProperties twoClasses false true (after twoClasses [])).1 = ["y", "x"] ∧
    (getPropertyName twoClasses false true (after twoClasses [.name false false])).1 = .ok "x" ∧
    (getPropertyName twoClasses false true (after twoClasses [])).1 = .ok "y" ∧
    (getRegistration twoClasses false true (after twoClasses [.registration false false])).1 = .ok (some (false, "x")) ∧
    (getRegistration twoClasses false true (after twoClasses [])).1 = .ok (some (true, "y")) ∧
    ¬ HasProperties twoClasses true ["x"] := by
  refine ⟨by decide, by decide, by decide, by decide, by decide, by decide, fun h => ?_⟩
  have := (h.2 "y").2 ⟨true, by decide, by decide⟩
  revert this; decide

/-- The hypotheses above are met: here nothing was asked about the base class. -/
example : MroStarts twoClasses ∧ AncestorsUnused twoClasses [.properties false true, .name false true] true := by
  refine ⟨fun c => by cases c <;> exact ⟨_, rfl⟩, ?_⟩
  intro x hx _
  simp only [List.mem_cons, List.not_mem_nil, or_false] at hx
  rcases hx with rfl | rfl <;> rfl

end Verif.Props
