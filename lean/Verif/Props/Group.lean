import Verif.Lemmas.GroupCalls
import Verif.Lemmas.Merge
import Verif.Props.Collection

/-!
# Properties of Group (C04, C09–C21)
-/
namespace Verif.Props
open Verif.Storage Verif.Spec
variable {V : Type}

/-- Groups reachable by the API: constructed from at least one empty collection of any
sizes, then any history of calls (including assignments to `strict`). -/
def GroupReach (g : CGroup V) : Prop :=
  ∃ (cs : List (Collection V)) (s : Bool) (g0 : CGroup V) (ops : List (GroupCall V)),
    cs ≠ [] ∧ (∀ c ∈ cs, c.tree = []) ∧ CGroup.init cs s = .ok g0 ∧ g = (g0.run ops).2

theorem GroupReach.inv {g : CGroup V} (h : GroupReach g) : g.Inv := by
  obtain ⟨cs, s, g0, ops, h1, h2, h3, rfl⟩ := h
  exact CGroup.run_inv (CGroup.init_inv h1 h2 h3).1 ops

/-- Two collections, limits 2 and 3. -/
def exampleGroup : CGroup Nat := ⟨[Collection.new 0 (some 2) false, Collection.new 1 (some 3) false]⟩

theorem exampleGroup_reach (ops : List (GroupCall Nat)) : GroupReach (exampleGroup.run ops).2 :=
  ⟨[Collection.new 0 (some 2) true, Collection.new 1 (some 3) true], false, exampleGroup, ops,
    by simp, by decide, by decide, rfl⟩

/-- A call that is not `popitem`. -/
def CollCall.notPopitem : CollCall V → Prop
  | .popitem => False
  | _ => True

/-! ### C11 -/

/-- **C11.** A non-strict group of any number of collections of any sizes refines one
plain map along every history of insert/update/pop/setdefault/clear. -/
theorem group_refines_map (cs : List (Collection V)) (g0 : CGroup V) (hne : cs ≠ [])
    (he : ∀ c ∈ cs, c.tree = []) (h0 : CGroup.init cs false = .ok g0)
    (ops : List (CollCall V)) (hops : ∀ op ∈ ops, CollCall.notPopitem op) :
    MapRun Map.empty ops (g0.run (ops.map .map)).1
      (fun k => match (g0.run (ops.map .map)).2.get k with | .ok r => r | .error _ => none) := by
  obtain ⟨hi, hv, hc⟩ := CGroup.init_inv hne he h0
  have hns : ∀ c ∈ g0.collections, c.strict = false := by
    rw [hc]; intro c hc
    obtain ⟨d, _, rfl⟩ := List.mem_map.1 hc; rfl
  show MapRun Map.empty ops (g0.run (ops.map .map)).1 (g0.run (ops.map .map)).2.view
  rw [← hv]
  clear hv hc h0
  induction ops generalizing g0 with
  | nil => exact .nil
  | cons op ops ih =>
    have hop := hops op List.mem_cons_self
    have hstep : MapStep g0.view op (g0.call op).1 (g0.call op).2.view := by
      rcases CGroup.call_spec hi op with h | h | h
      · obtain ⟨c, hc, hs⟩ := h.2
        rw [hns c hc] at hs; simp at hs
      · rw [h.1] at hop; exact hop.elim
      · exact h
    refine .cons hstep (ih (g0.call op).2 (fun o ho => hops o (List.mem_cons_of_mem _ ho))
      (CGroup.gcall_inv hi (.map op)) ?_)
    -- strict flags never change by map calls
    have hset : ∀ (i : Nat) (c : Collection V), c.strict = false →
        ∀ x ∈ g0.collections.set i c, x.strict = false := by
      intro i c hcs x hx
      rcases List.mem_or_eq_of_mem_set hx with hx | rfl
      · exact hns x hx
      · exact hcs
    have hroute : ∀ {α : Type} (k : String) (o : CollCall V)
        (fn : Collection V → Outcome α × Collection V) (ret : α → Ret V),
        (∀ c, c.call o = ((fn c).1.map ret, (fn c).2)) →
        ∀ x ∈ (g0.route k fn).2.collections, x.strict = false := by
      intro α k o fn ret hfn x hx
      obtain ⟨c, hc⟩ := CGroup.coll_exists hi.ne k
      rw [CGroup.route_eq hc] at hx
      refine hset _ _ ?_ x hx
      have := (Collection.call_fixed c o).2.1
      rw [hfn c] at this
      simp only at this
      rw [this, hns c (List.mem_of_getElem? hc)]
    cases op with
    | insert k v =>
      simp only [CGroup.call, CGroup.insert]
      have hg : groupIndex k g0.collections.length = .ok (hashId k % g0.collections.length) := by
        unfold groupIndex; rw [if_neg]; intro h; exact hi.ne (List.length_eq_zero_iff.1 h)
      rw [hg]
      simp only
      split_ifs
      · exact hns
      · exact hroute k (.insert k v) _ .num fun c => rfl
    | update d =>
      intro x hx
      simp only [CGroup.call, CGroup.update] at hx
      split_ifs at hx
      · exact hns x hx
      · exact hns x hx
      · obtain ⟨j, hj⟩ := List.mem_iff_getElem?.1 hx
        obtain ⟨c, hc, h | h⟩ := updateLoop_getElem _ _ _ _ j x hj
        · rw [h]; exact hns c (List.mem_of_getElem? hc)
        · rw [h]
          have := (Collection.call_fixed c (.update (share g0.collections.length d (0 + j)))).2.1
          simp only [Collection.call] at this
          rw [this]; exact hns c (List.mem_of_getElem? hc)
    | pop k d => exact hroute k (.pop k d) _ .val fun c => rfl
    | popitem => exact hop.elim
    | setdefault k v => exact hroute k (.setdefault k v) _ .val fun c => rfl
    | clear =>
      intro x hx
      obtain ⟨d, hd, rfl⟩ := List.mem_map.1 hx
      exact hns d hd

/-- C11, any mode: after any history the next call raises a capacity error (only if some
collection is strict), or is `popitem` failing on an empty collection, or answers and
does what the map prescribes.  `get`/`has_key` never raise and agree. -/
theorem group_call_refines_map (g : CGroup V) (hg : GroupReach g) (op : CollCall V) :
    (((g.call op).1 = .error .groupCapacity ∨ (g.call op).1 = .error .collectionCapacity) ∧
        ∃ c ∈ g.collections, c.strict = true) ∨
    (op = .popitem ∧ g.call op = (.error .valueError, g) ∧
        ∃ c ∈ g.collections, ∀ k, c.get k = none) ∨
    MapStep g.view op (g.call op).1 (g.call op).2.view :=
  CGroup.call_spec hg.inv op

theorem group_get_has (g : CGroup V) (hg : GroupReach g) (k : String) :
    g.get k = .ok (g.view k) ∧ g.hasKey k = .ok (g.view k).isSome :=
  ⟨CGroup.get_view hg.inv.ne k, CGroup.hasKey_view hg.inv.ne k⟩

/-- C11: `keys()`, `items()`, `values()` hold exactly the map's content. -/
theorem group_views (g : CGroup V) (hg : GroupReach g) :
    g.keys.Nodup ∧ (∀ k, k ∈ g.keys ↔ g.view k ≠ none) ∧
    (∀ k v, (k, v) ∈ g.items ↔ g.view k = some v) ∧ (g.items.map Prod.fst).Nodup ∧
    g.values = g.items.map Prod.snd :=
  ⟨CGroup.keys_nodup hg.inv, CGroup.mem_keys hg.inv, CGroup.mem_items hg.inv,
    by rw [CGroup.keys_items]; exact CGroup.keys_nodup hg.inv, (CGroup.values_items g).symm⟩

example : (exampleGroup.run (([.insert "b" 1, .insert "a" 2, .update [("c", 4), ("a", 5)],
    .pop "b" none, .insert "a" 7, .setdefault "d" 8, .pop "zz" none] : List (CollCall Nat)).map .map)).1
    = [.ok (.num 1), .ok (.num 1), .ok .unit, .ok (.val 1), .ok (.num 0), .ok (.val 8),
        .error .keyError] := by decide +kernel

/-! ### C12, C10 -/

/-- **C12 (groups).** `size` is the number of distinct ids held; `max_size` is the sum of
the limits of the collections the group was built from, whatever happened since. -/
theorem group_size (g : CGroup V) (hg : GroupReach g) : Map.Card g.view g.size := CGroup.card hg.inv

theorem CGroup.gcall_maxSizes (g : CGroup V) (op : GroupCall V) :
    (g.gcall op).2.collections.map Collection.maxSize = g.collections.map Collection.maxSize := by
  have hset : ∀ (i : Nat) (c c' : Collection V), g.collections[i]? = some c →
      c'.maxSize = c.maxSize →
      (g.collections.set i c').map Collection.maxSize = g.collections.map Collection.maxSize := by
    intro i c c' hc hm
    rw [List.map_set, hm]
    obtain ⟨hl, he⟩ := List.getElem?_eq_some_iff.1 hc
    have : c.maxSize = (g.collections.map Collection.maxSize)[i]'(by simpa using hl) := by
      rw [List.getElem_map, he]
    rw [this]; exact List.set_getElem_self _
  have hroute : ∀ {α : Type} (k : String) (o : CollCall V)
      (fn : Collection V → Outcome α × Collection V) (ret : α → Ret V),
      (∀ c, c.call o = ((fn c).1.map ret, (fn c).2)) →
      (g.route k fn).2.collections.map Collection.maxSize =
        g.collections.map Collection.maxSize := by
    intro α k o fn ret hfn
    unfold CGroup.route
    split
    · rfl
    · split
      · rfl
      · rename_i c hc
        refine hset _ c _ hc ?_
        have := (Collection.call_fixed c o).1
        rw [hfn c] at this; exact this
  cases op with
  | setStrict b =>
    cases b with
    | none => rfl
    | some b => simp [CGroup.gcall, CGroup.setStrict]
  | map op =>
    cases op with
    | insert k v =>
      simp only [CGroup.gcall, CGroup.call, CGroup.insert]
      split
      · rfl
      · split_ifs
        · rfl
        · exact hroute k (.insert k v) _ .num fun c => rfl
    | update d =>
      simp only [CGroup.gcall, CGroup.call, CGroup.update]
      split_ifs
      · rfl
      · rfl
      · apply List.ext_getElem?
        intro j
        rw [List.getElem?_map, List.getElem?_map]
        cases hj : (CGroup.updateLoop g.collections.length d 0 g.collections).2[j]? with
        | none =>
          have hl := List.getElem?_eq_none_iff.1 hj
          rw [updateLoop_length] at hl
          rw [List.getElem?_eq_none_iff.2 hl]
        | some c' =>
          obtain ⟨c, hc, h | h⟩ := updateLoop_getElem _ _ _ _ j c' hj
          · rw [hc, h]
          · rw [hc, h]
            have := (Collection.call_fixed c (.update (share g.collections.length d (0 + j)))).1
            simp only [Collection.call] at this
            rw [Option.map_some, Option.map_some, this]
    | pop k d => exact hroute k (.pop k d) _ .val fun c => rfl
    | popitem =>
      simp only [CGroup.gcall, CGroup.call, CGroup.popitem]
      split
      · rfl
      · rename_i k _
        have := hroute k (.pop k none) (fun c => c.pop k none) .val fun c => rfl
        split
        · rename_i h; rw [← this]; unfold CGroup.pop at h; rw [h]
        · rename_i h; rw [← this]; unfold CGroup.pop at h; rw [h]
    | setdefault k v => exact hroute k (.setdefault k v) _ .val fun c => rfl
    | clear => simp [CGroup.gcall, CGroup.call, CGroup.clear, Collection.clear]

theorem group_maxSize (cs : List (Collection V)) (s : Bool) (g0 : CGroup V)
    (h0 : CGroup.init cs s = .ok g0) (ops : List (GroupCall V)) :
    (g0.run ops).2.maxSize = (cs.map Collection.maxSize).sum ∧
    (g0.run ops).2.collections.length = cs.length := by
  have h : (g0.run ops).2.collections.map Collection.maxSize =
      g0.collections.map Collection.maxSize := by
    clear h0
    induction ops generalizing g0 with
    | nil => rfl
    | cons op ops ih => exact (ih _).trans (CGroup.gcall_maxSizes g0 op)
  unfold CGroup.init at h0
  split_ifs at h0
  injection h0 with h0
  subst h0
  constructor
  · unfold CGroup.maxSize; rw [h]; simp [Function.comp_def]
  · have := congrArg List.length h; simpa using this

theorem foldl_max_nat (l : List Nat) (a : Nat) :
    (l.foldl max a = a ∨ l.foldl max a ∈ l) ∧ a ≤ l.foldl max a ∧ ∀ x ∈ l, x ≤ l.foldl max a := by
  induction l generalizing a with
  | nil => simp
  | cons b l ih =>
    simp only [List.foldl_cons, List.mem_cons, forall_eq_or_imp]
    obtain ⟨h1, h2, h3⟩ := ih (max a b)
    refine ⟨?_, by omega, by omega, h3⟩
    rcases h1 with h1 | h1
    · rcases le_total a b with h | h
      · right; left; rw [h1]; omega
      · left; rw [h1]; omega
    · exact .inr (.inr h1)

theorem status_of_ne (g : CGroup V) (hne : g.collections ≠ []) :
    ∃ s, g.status = .ok s ∧ (∃ c ∈ g.collections, c.status = s) ∧
      ∀ c ∈ g.collections, c.status ≤ s := by
  unfold CGroup.status
  cases hm : g.collections with
  | nil => exact absurd hm hne
  | cons c cs =>
    obtain ⟨h1, h2, h3⟩ := foldl_max_nat (cs.map Collection.status) c.status
    refine ⟨_, rfl, ?_, ?_⟩
    · rcases h1 with h1 | h1
      · exact ⟨c, by simp, h1.symm⟩
      · obtain ⟨d, hd, he⟩ := List.mem_map.1 h1
        exact ⟨d, List.mem_cons_of_mem _ hd, he⟩
    · intro d hd
      rcases List.mem_cons.1 hd with rfl | hd
      · exact h2
      · exact h3 _ (List.mem_map.2 ⟨d, hd, rfl⟩)

/-- **C10 (groups).** The status of a group is the worst status of its collections. -/
theorem group_status (g : CGroup V) (hg : GroupReach g) :
    ∃ s, g.status = .ok s ∧ (∃ c ∈ g.collections, c.status = s) ∧
      ∀ c ∈ g.collections, c.status ≤ s := status_of_ne g hg.inv.ne

example : Map.Card (exampleGroup.run [.map (.insert "a" 1), .map (.insert "b" 2)]).2.view 2 :=
  group_size _ (exampleGroup_reach _)

/-! ### C13, C14: merged iteration -/

/-- `k` is stored and within the inclusive bounds. -/
def CGroup.InRange (g : CGroup V) (mn mx : Option String) (k : String) : Prop :=
  g.view k ≠ none ∧ (∀ a, mn = some a → a ≤ k) ∧ (∀ b, mx = some b → k ≤ b)

theorem gens_items {g : CGroup V} (hi : g.Inv) (mn mx : Option String) :
    let gens := g.collections.map fun c => c.iteritems mn mx
    (gens.flatten.map Prod.fst).Nodup ∧
    (∀ k v, (k, v) ∈ gens.flatten ↔ g.view k = some v ∧ (∀ a, mn = some a → a ≤ k) ∧
      (∀ b, mx = some b → k ≤ b)) := by
  intro gens
  have hsub : gens.flatten.Sublist g.items := by
    show (g.collections.map fun c => c.iteritems mn mx).flatten.Sublist g.items
    unfold CGroup.items
    rw [List.flatMap_def]
    induction g.collections with
    | nil => simp
    | cons c cs ih =>
      simp only [List.map_cons, List.flatten_cons]
      exact List.Sublist.append List.filter_sublist ih
  constructor
  · have := CGroup.keys_nodup hi
    rw [← CGroup.keys_items] at this
    exact this.sublist (hsub.map _)
  · intro k v
    rw [← CGroup.mem_items hi, List.mem_flatten]
    unfold CGroup.items
    rw [List.mem_flatMap]
    constructor
    · rintro ⟨l, hl, hk⟩
      obtain ⟨c, hc, rfl⟩ := List.mem_map.1 hl
      have := Tree.mem_rangeItems.1 hk
      exact ⟨⟨c, hc, this.1⟩, this.2⟩
    · rintro ⟨⟨c, hc, hk⟩, hb⟩
      exact ⟨_, List.mem_map.2 ⟨c, hc, rfl⟩, Tree.mem_rangeItems.2 ⟨hk, hb⟩⟩

theorem gens_keys {g : CGroup V} (hi : g.Inv) (mn mx : Option String) :
    let gens := g.collections.map fun c => c.iterkeys mn mx
    gens.flatten.Nodup ∧ (∀ k, k ∈ gens.flatten ↔ CGroup.InRange g mn mx k) ∧
      (∀ l ∈ gens, l.Pairwise (· ≤ ·)) := by
  intro gens
  have he : gens = (g.collections.map fun c => c.iteritems mn mx).map (List.map Prod.fst) := by
    simp [gens, Function.comp_def, Collection.iterkeys]
  have hf : gens.flatten = ((g.collections.map fun c => c.iteritems mn mx).flatten).map Prod.fst := by
    rw [he, List.map_flatten]
  obtain ⟨h1, h2⟩ := gens_items hi mn mx
  refine ⟨by rw [hf]; exact h1, fun k => ?_, ?_⟩
  · rw [hf, List.mem_map]
    constructor
    · rintro ⟨⟨k', v⟩, hp, rfl⟩
      have := (h2 k' v).1 hp
      exact ⟨by rw [this.1]; simp, this.2⟩
    · rintro ⟨hv, hb⟩
      obtain ⟨v, hv⟩ := Option.ne_none_iff_exists'.1 hv
      exact ⟨(k, v), (h2 k v).2 ⟨hv, hb⟩, rfl⟩
  · intro l hl
    obtain ⟨c, hc, rfl⟩ := List.mem_map.1 hl
    have := (Tree.sorted_rangeItems (hi.sorted c hc) mn mx).keys_sorted
    exact this.imp le_of_lt

theorem string_falsy {x : String} : truthy x = false ↔ x = "" := by
  simp [truthy]

theorem string_truthy {x : String} : truthy x = true ↔ x ≠ "" := by
  simp [truthy]

theorem empty_lt {y : String} (h : y ≠ "") : "" < y := by
  rw [String.lt_iff_toList_lt]
  have h2 : y.toList ≠ [] := by simpa [String.toList_eq_nil_iff] using h
  cases hl : y.toList with
  | nil => exact absurd hl h2
  | cons a l => exact List.Lex.nil

/-- The empty id is not stored (in bounds), or another collection has a key in bounds. -/
def CGroup.MergeOk (g : CGroup V) (mn mx : Option String) : Prop :=
  CGroup.InRange g mn mx "" → ∃ k, CGroup.InRange g mn mx k ∧
    groupIndex k g.collections.length ≠ groupIndex "" g.collections.length

theorem mergeOk_head {g : CGroup V} (hi : g.Inv) {mn mx : Option String} (hok : CGroup.MergeOk g mn mx)
    (hin : CGroup.InRange g mn mx "") :
    CGroup.headTruthy (g.collections.map fun c => c.iterkeys mn mx) = true := by
  obtain ⟨k, hk, hidx⟩ := hok hin
  obtain ⟨c, hc, hck⟩ := (CGroup.view_ne_none hi k).1 hk.1
  obtain ⟨i, hci⟩ := List.mem_iff_getElem?.1 hc
  have hik := hi.routed i c hci k hck
  refine List.any_eq_true.2 ⟨c.iterkeys mn mx, List.mem_map.2 ⟨c, hc, rfl⟩, ?_⟩
  have hkm : k ∈ c.iterkeys mn mx := by
    obtain ⟨v, hv⟩ := Option.ne_none_iff_exists'.1 hck
    exact List.mem_map.2 ⟨(k, v), Tree.mem_rangeItems.2 ⟨Tree.mem_of_get hv, hk.2⟩, rfl⟩
  cases hl : c.iterkeys mn mx with
  | nil => rw [hl] at hkm; simp at hkm
  | cons a r =>
    simp only
    rw [string_truthy]
    rintro rfl
    have ha : "" ∈ c.iterkeys mn mx := by rw [hl]; simp
    obtain ⟨⟨k', v⟩, hp, hk'⟩ := List.mem_map.1 ha
    simp only at hk'
    subst hk'
    have hg := Tree.get_of_mem (hi.sorted c hc) (Tree.mem_rangeItems.1 hp).1
    have h0 := hi.routed i c hci "" (by show Tree.get c.tree "" ≠ none; rw [hg]; simp)
    apply hidx
    unfold groupIndex
    rw [hik, h0]

theorem iterkeys_spec {g : CGroup V} (hi : g.Inv) (mn mx : Option String) (hok : CGroup.MergeOk g mn mx) :
    (g.iterkeys mn mx).Pairwise (· < ·) ∧ ∀ k, k ∈ g.iterkeys mn mx ↔ CGroup.InRange g mn mx k := by
  obtain ⟨h1, h2, h3⟩ := gens_keys hi mn mx
  unfold CGroup.iterkeys
  generalize hgens : (g.collections.map fun c => c.iterkeys mn mx) = gens at h1 h2 h3
  have hres : (CGroup.mergeLoop (gens.map List.length).sum gens).Pairwise (· ≤ ·) ∧
      (CGroup.mergeLoop (gens.map List.length).sum gens).Perm gens.flatten := by
    by_cases hin : CGroup.InRange g mn mx ""
    · refine CGroup.mergeLoop_correct_of_head _ _ le_rfl h3 h1 ?_ ?_ ?_
      · rw [← hgens]; exact mergeOk_head hi hok hin
      · intro x y hx hy
        rw [string_falsy] at hx; rw [string_truthy] at hy
        rw [hx]; exact empty_lt hy
      · intro x y hx hy
        rw [string_falsy] at hx hy; rw [hx, hy]
    · refine CGroup.mergeLoop_correct _ _ le_rfl h3 ?_
      intro x hx
      rw [string_truthy]
      rintro rfl
      exact hin ((h2 _).1 hx)
  refine ⟨?_, fun k => by rw [hres.2.mem_iff, h2]⟩
  have hnd := hres.2.nodup_iff.2 h1
  exact hres.1.imp₂ (fun _ _ h1 h2 => lt_of_le_of_ne h1 h2) hnd

/-- **C13 (partial).** `iterkeys(min, max)` yields every stored key within the bounds exactly
once in increasing order - unless the empty id is in bounds and no other collection
has a key in bounds.  Missing: that case, where the claim is false
(`group_iterkeys_empty_id`). -/
theorem group_iterkeys_partial (g : CGroup V) (hg : GroupReach g) (mn mx : Option String)
    (hok : CGroup.MergeOk g mn mx) :
    (g.iterkeys mn mx).Pairwise (· < ·) ∧ ∀ k, k ∈ g.iterkeys mn mx ↔ CGroup.InRange g mn mx k :=
  iterkeys_spec hg.inv mn mx hok

theorem not_mergeOk_head {g : CGroup V} (hi : g.Inv) {mn mx : Option String}
    (hok : ¬ CGroup.MergeOk g mn mx) :
    CGroup.headTruthy (g.collections.map fun c => c.iterkeys mn mx) = false := by
  unfold CGroup.MergeOk at hok
  push Not at hok
  obtain ⟨hin, hall⟩ := hok
  rw [Bool.eq_false_iff]
  intro h
  obtain ⟨l, hl, hx⟩ := List.any_eq_true.1 h
  obtain ⟨c, hc, rfl⟩ := List.mem_map.1 hl
  cases hcl : c.iterkeys mn mx with
  | nil => rw [hcl] at hx; simp at hx
  | cons a r =>
    rw [hcl] at hx
    simp only at hx
    rw [string_truthy] at hx
    have ha : a ∈ c.iterkeys mn mx := by rw [hcl]; simp
    obtain ⟨h1, h2, _⟩ := gens_keys hi mn mx
    have hr : CGroup.InRange g mn mx a :=
      (h2 a).1 (List.mem_flatten.2 ⟨_, List.mem_map.2 ⟨c, hc, rfl⟩, ha⟩)
    have hidx := hall a hr
    have hnz : g.collections.length ≠ 0 := by
      intro h0; exact hi.ne (List.length_eq_zero_iff.1 h0)
    simp only [groupIndex, hnz, if_false, Except.ok.injEq] at hidx
    -- "" is stored in the same collection, before a
    obtain ⟨c0, hc0, hc0k⟩ := (CGroup.view_ne_none hi "").1 hin.1
    obtain ⟨i0, hi0⟩ := List.mem_iff_getElem?.1 hc0
    obtain ⟨i, hci⟩ := List.mem_iff_getElem?.1 hc
    have e0 := hi.routed i0 c0 hi0 "" hc0k
    obtain ⟨⟨a', v⟩, hp, ha'⟩ := List.mem_map.1 ha
    simp only at ha'
    subst ha'
    have hga := Tree.get_of_mem (hi.sorted c hc) (Tree.mem_rangeItems.1 hp).1
    have e1 := hi.routed i c hci a' (by show Tree.get c.tree a' ≠ none; rw [hga]; simp)
    have : i = i0 := by rw [← e1, ← e0, hidx]
    subst this
    rw [hci] at hi0; injection hi0 with hi0; subst hi0
    have hem : "" ∈ c.iterkeys mn mx := by
      obtain ⟨w, hw⟩ := Option.ne_none_iff_exists'.1 hc0k
      exact List.mem_map.2 ⟨("", w), Tree.mem_rangeItems.2 ⟨Tree.mem_of_get hw, hin.2⟩, rfl⟩
    have hsort : (c.iterkeys mn mx).Pairwise (· < ·) :=
      (Tree.sorted_rangeItems (hi.sorted c hc) mn mx).keys_sorted
    rw [hcl] at hem hsort
    rcases List.mem_cons.1 hem with hem | hem
    · exact hx hem.symm
    · have := (List.pairwise_cons.1 hsort).1 "" hem
      exact absurd this (not_lt.2 (le_of_lt (empty_lt hx)))

/-- **C13 (what the code does otherwise).** If the empty id is stored (in bounds) and all
keys in bounds share its collection, `iterkeys` yields nothing at all. -/
theorem group_iterkeys_empty_id (g : CGroup V) (hg : GroupReach g) (mn mx : Option String)
    (hok : ¬ CGroup.MergeOk g mn mx) : g.iterkeys mn mx = [] :=
  CGroup.mergeLoop_nil_of_not_head _ _ (not_mergeOk_head hg.inv hok)

/-- **C13 (counterexample).** A one-collection group with the keys "" and "a": `iterkeys`
yields nothing. -/
theorem group_iterkeys_counterexample :
    ∃ g : CGroup Nat, GroupReach g ∧ g.view "a" ≠ none ∧ g.iterkeys none none = [] := by
  refine ⟨((⟨[Collection.new 0 (some 2) false]⟩ : CGroup Nat).run
    [.map (.insert "" 1), .map (.insert "a" 2)]).2, ?_, ?_, ?_⟩
  · exact ⟨[Collection.new 0 (some 2) true], false, _, _, by simp, by decide, rfl, rfl⟩
  · decide +kernel
  · decide +kernel

example : (exampleGroup.run [.map (.insert "b" 1), .map (.insert "a" 2), .map (.insert "" 3),
    .map (.insert "c" 3)]).2.iterkeys none (some "b") = ["", "a", "b"] := by decide +kernel

/-- **C14 (partial).** `iteritems(min, max)` never raises and yields every stored pair within
the bounds exactly once in increasing key order, under the same condition as C13. -/
theorem group_iteritems_partial (g : CGroup V) (hg : GroupReach g) (mn mx : Option String)
    (hok : CGroup.MergeOk g mn mx) :
    ∃ r, g.iteritems mn mx = .ok r ∧ (r.map Prod.fst).Pairwise (· < ·) ∧
      ∀ k v, (k, v) ∈ r ↔ g.view k = some v ∧ (∀ a, mn = some a → a ≤ k) ∧
        (∀ b, mx = some b → k ≤ b) := by
  have hi := hg.inv
  obtain ⟨h1, h2⟩ := gens_items hi mn mx
  unfold CGroup.iteritems
  have hgk : (g.collections.map fun c => c.iteritems mn mx).map (List.map Prod.fst) =
      g.collections.map fun c => c.iterkeys mn mx := by
    simp [Function.comp_def, Collection.iterkeys]
  have hlen : ((g.collections.map fun c => c.iteritems mn mx).map List.length).sum =
      ((g.collections.map fun c => c.iterkeys mn mx).map List.length).sum := by
    simp [Function.comp_def, Collection.iterkeys]
  obtain ⟨r, e1, e2, e3⟩ := CGroup.itemsLoop_correct
    ((g.collections.map fun c => c.iteritems mn mx).map List.length).sum
    (g.collections.map fun c => c.iteritems mn mx) _ h1
    (fun p hp => CGroup.firstItems_dict _ [] h1 p hp)
  refine ⟨r, e1, ?_, ?_⟩
  · rw [e2, hgk, hlen]; exact (iterkeys_spec hi mn mx hok).1
  · intro k v
    constructor
    · intro h; exact (h2 k v).1 (e3 _ h)
    · rintro ⟨hv, hb⟩
      have hk : k ∈ r.map Prod.fst := by
        rw [e2, hgk, hlen]
        exact ((iterkeys_spec hi mn mx hok).2 k).2 ⟨by rw [hv]; simp, hb⟩
      obtain ⟨⟨k', v'⟩, hp, rfl⟩ := List.mem_map.1 hk
      have := ((h2 k' v').1 (e3 _ hp)).1
      simp only at hv
      rw [this] at hv; injection hv with hv; subst hv
      exact hp

/-- **C14 (what the code does otherwise).** As for `iterkeys`. -/
theorem group_iteritems_empty_id (g : CGroup V) (hg : GroupReach g) (mn mx : Option String)
    (hok : ¬ CGroup.MergeOk g mn mx) : g.iteritems mn mx = .ok [] := by
  obtain ⟨h1, -⟩ := gens_items hg.inv mn mx
  have hgk : (g.collections.map fun c => c.iteritems mn mx).map (List.map Prod.fst) =
      g.collections.map fun c => c.iterkeys mn mx := by
    simp [Function.comp_def, Collection.iterkeys]
  obtain ⟨r, e1, e2, -⟩ := CGroup.itemsLoop_correct
    ((g.collections.map fun c => c.iteritems mn mx).map List.length).sum
    (g.collections.map fun c => c.iteritems mn mx) _ h1
    (fun p hp => CGroup.firstItems_dict _ [] h1 p hp)
  unfold CGroup.iteritems
  rw [hgk, CGroup.mergeLoop_nil_of_not_head _ _ (not_mergeOk_head hg.inv hok)] at e2
  rw [e1, List.map_eq_nil_iff.1 e2]

/-- **C14 (counterexample).** -/
theorem group_iteritems_counterexample :
    ∃ g : CGroup Nat, GroupReach g ∧ g.view "a" ≠ none ∧ g.iteritems none none = .ok [] := by
  refine ⟨((⟨[Collection.new 0 (some 2) false]⟩ : CGroup Nat).run
    [.map (.insert "" 1), .map (.insert "a" 2)]).2, ?_, ?_, ?_⟩
  · exact ⟨[Collection.new 0 (some 2) true], false, _, _, by simp, by decide, rfl, rfl⟩
  · decide +kernel
  · decide +kernel

example : (exampleGroup.run [.map (.insert "b" 1), .map (.insert "a" 2), .map (.insert "" 3),
    .map (.insert "c" 4)]).2.iteritems none none = .ok [("", 3), ("a", 2), ("b", 1), ("c", 4)] := by
  decide +kernel

/-! ### C15: values -/

/-- **C15 (partial: truthy values).** `itervalues(min, max)` yields exactly the values of the
stored pairs with key in bounds, each as often as it is stored, if all of them are
truthy. -/
theorem group_itervalues_partial [LinearOrder V] [Truthy V] (g : CGroup V) (hg : GroupReach g)
    (mn mx : Option String)
    (ht : ∀ k v, g.view k = some v → truthy v = true) :
    ∃ its : List (String × V), (its.map Prod.fst).Nodup ∧
      (∀ k v, (k, v) ∈ its ↔ g.view k = some v ∧ (∀ a, mn = some a → a ≤ k) ∧
        (∀ b, mx = some b → k ≤ b)) ∧
      (g.itervalues mn mx).Perm (its.map Prod.snd) := by
  obtain ⟨h1, h2⟩ := gens_items hg.inv mn mx
  refine ⟨_, h1, h2, ?_⟩
  have he : (g.collections.map fun c => c.itervalues mn mx).flatten =
      ((g.collections.map fun c => c.iteritems mn mx).flatten).map Prod.snd := by
    rw [List.map_flatten]; simp [Function.comp_def, Collection.itervalues, Collection.iteritems]
  unfold CGroup.itervalues
  rw [← he]
  apply CGroup.mergeLoop_perm _ _ le_rfl
  intro x hx
  rw [he] at hx
  obtain ⟨⟨k, v⟩, hp, rfl⟩ := List.mem_map.1 hx
  exact ht k v ((h2 k v).1 hp).1

/-- Python integers, 0 is falsy. -/
instance : Truthy Nat := ⟨fun n => n ≠ 0⟩

/-- **C15 (counterexample).** With the value 0 at the front of the only non-empty collection
`itervalues` stops: the value 5 is never yielded. -/
theorem group_itervalues_counterexample :
    ∃ g : CGroup Nat, GroupReach g ∧ g.view "c" = some 5 ∧ g.itervalues none none = [] := by
  refine ⟨(exampleGroup.run [.map (.insert "a" 0), .map (.insert "c" 5)]).2,
    exampleGroup_reach _, ?_, ?_⟩ <;> decide +kernel

example : ∀ k v, (exampleGroup.run [.map (.insert "a" 2), .map (.insert "c" 1)]).2.view k = some v →
    truthy v = true := by
  intro k v h
  rw [← CGroup.mem_items (exampleGroup_reach _).inv] at h
  revert h
  have : (exampleGroup.run [.map (.insert "a" 2), .map (.insert "c" 1)]).2.items =
    [("a", 2), ("c", 1)] := by decide +kernel
  rw [this]
  simp only [List.mem_cons, Prod.mk.injEq, List.not_mem_nil, or_false]
  rintro (⟨_, rfl⟩ | ⟨_, rfl⟩) <;> decide

/-! ### C16: byValue -/

theorem byValue_order_trans [LinearOrder V] (a b c : V × String)
    (h1 : decide (b.1 < a.1 ∨ (b.1 = a.1 ∧ b.2 ≤ a.2)) = true)
    (h2 : decide (c.1 < b.1 ∨ (c.1 = b.1 ∧ c.2 ≤ b.2)) = true) :
    decide (c.1 < a.1 ∨ (c.1 = a.1 ∧ c.2 ≤ a.2)) = true := by
  simp only [decide_eq_true_eq] at *
  rcases h1 with h1 | ⟨h1, h1'⟩ <;> rcases h2 with h2 | ⟨h2, h2'⟩
  · exact .inl (lt_trans h2 h1)
  · exact .inl (h2 ▸ h1)
  · exact .inl (h1 ▸ h2)
  · exact .inr ⟨h2.trans h1, le_trans h2' h1'⟩

theorem byValue_order_total [LinearOrder V] (a b : V × String) :
    (decide (b.1 < a.1 ∨ (b.1 = a.1 ∧ b.2 ≤ a.2)) ||
      decide (a.1 < b.1 ∨ (a.1 = b.1 ∧ a.2 ≤ b.2))) = true := by
  simp only [Bool.or_eq_true, decide_eq_true_eq]
  rcases lt_trichotomy a.1 b.1 with h | h | h
  · exact .inr (.inl h)
  · rcases le_total a.2 b.2 with h2 | h2
    · exact .inr (.inr ⟨h, h2⟩)
    · exact .inl (.inr ⟨h.symm, h2⟩)
  · exact .inl (.inl h)

theorem byValue_strict [LinearOrder V] {l : List (V × String)} (hn : (l.map Prod.snd).Nodup)
    (h : l.Pairwise fun a b => decide (b.1 < a.1 ∨ (b.1 = a.1 ∧ b.2 ≤ a.2)) = true) :
    l.Pairwise fun p q => q.1 < p.1 ∨ (q.1 = p.1 ∧ q.2 < p.2) := by
  have hn' : l.Pairwise fun p q => p.2 ≠ q.2 := by
    have := hn; unfold List.Nodup at this; rwa [List.pairwise_map] at this
  refine (h.and hn').imp ?_
  rintro a b ⟨h1, h2⟩
  simp only [decide_eq_true_eq] at h1
  rcases h1 with h1 | ⟨h1, h3⟩
  · exact .inl h1
  · exact .inr ⟨h1, lt_of_le_of_ne h3 (Ne.symm h2)⟩

/-- **C16.** `byValue(min)` of a group yields exactly the pairs (value, key) with value ≥ min,
once each, highest value first, among equal values highest key first. -/
theorem group_byValue [LinearOrder V] (g : CGroup V) (hg : GroupReach g) (mn : Option V) :
    ((g.byValue mn).map Prod.snd).Nodup ∧
    (∀ k v, (v, k) ∈ g.byValue mn ↔ g.view k = some v ∧ ∀ a, mn = some a → a ≤ v) ∧
    (g.byValue mn).Pairwise fun p q => q.1 < p.1 ∨ (q.1 = p.1 ∧ q.2 < p.2) := by
  have hi := hg.inv
  have hperm : ∀ c : Collection V, (c.byValue mn).Perm
      ((c.tree.filter fun p => match mn with | none => true | some m => decide (m ≤ p.2)).map
        fun p => (p.2, p.1)) := fun c => List.mergeSort_perm _ _
  have hp : (g.byValue mn).Perm ((g.items.filter fun p => match mn with
      | none => true | some m => decide (m ≤ p.2)).map fun p => (p.2, p.1)) := by
    refine (List.mergeSort_perm _ _).trans ?_
    unfold CGroup.items
    induction g.collections with
    | nil => simp
    | cons c cs ih =>
      simp only [List.flatMap_cons, List.filter_append, List.map_append]
      exact (hperm c).append ih
  have hnd : ((g.byValue mn).map Prod.snd).Nodup := by
    have := (hp.map Prod.snd).nodup_iff
    rw [this, List.map_map]
    have hk := CGroup.keys_nodup hi
    rw [← CGroup.keys_items] at hk
    exact hk.sublist (List.Sublist.map _ List.filter_sublist)
  refine ⟨hnd, ?_, ?_⟩
  · intro k v
    rw [hp.mem_iff, ← CGroup.mem_items hi]
    simp only [List.mem_map, List.mem_filter, Prod.mk.injEq, Prod.exists]
    constructor
    · rintro ⟨k', v', ⟨h1, h2⟩, rfl, rfl⟩
      refine ⟨h1, ?_⟩
      rintro a rfl
      simpa using h2
    · rintro ⟨h1, h2⟩
      refine ⟨k, v, ⟨h1, ?_⟩, rfl, rfl⟩
      cases mn with
      | none => rfl
      | some m => simpa using h2 m rfl
  · have := List.pairwise_mergeSort (le := fun a b : V × String =>
      decide (b.1 < a.1 ∨ (b.1 = a.1 ∧ b.2 ≤ a.2))) byValue_order_trans byValue_order_total
      (g.collections.flatMap fun c => c.byValue mn)
    exact byValue_strict hnd this

/-- **C16, one collection.** The same for `byValue(min)` of a collection after any history. -/
theorem collection_byValue [LinearOrder V] (u : Nat) (ms : Option Nat) (s : Bool) (ops : List (CollCall V)) (mn : Option V) :
    let c := collectionAfter u ms s ops
    ((c.byValue mn).map Prod.snd).Nodup ∧
    (∀ k v, (v, k) ∈ c.byValue mn ↔ c.get k = some v ∧ ∀ a, mn = some a → a ≤ v) ∧
    (c.byValue mn).Pairwise fun p q => q.1 < p.1 ∨ (q.1 = p.1 ∧ q.2 < p.2) := by
  intro c
  have hs := collectionAfter_sorted u ms s ops
  have hp : (c.byValue mn).Perm ((c.items.filter fun p => match mn with
      | none => true | some m => decide (m ≤ p.2)).map fun p => (p.2, p.1)) := List.mergeSort_perm _ _
  have hnd : ((c.byValue mn).map Prod.snd).Nodup := by
    rw [(hp.map Prod.snd).nodup_iff, List.map_map]
    have hk : (c.items.map Prod.fst).Nodup := hs.keys_sorted.imp fun h => ne_of_lt h
    exact hk.sublist (List.Sublist.map _ List.filter_sublist)
  refine ⟨hnd, ?_, ?_⟩
  · intro k v
    rw [hp.mem_iff, ← (collection_views u ms s ops).2.2.2 k v]
    simp only [List.mem_map, List.mem_filter, Prod.mk.injEq, Prod.exists]
    constructor
    · rintro ⟨k', v', ⟨h1, h2⟩, rfl, rfl⟩
      refine ⟨h1, ?_⟩
      rintro a rfl
      simpa using h2
    · rintro ⟨h1, h2⟩
      refine ⟨k, v, ⟨h1, ?_⟩, rfl, rfl⟩
      cases mn with
      | none => rfl
      | some m => simpa using h2 m rfl
  · exact byValue_strict hnd (List.pairwise_mergeSort (le := fun a b : V × String =>
      decide (b.1 < a.1 ∨ (b.1 = a.1 ∧ b.2 ≤ a.2))) byValue_order_trans byValue_order_total _)

example : (2, "a") ∈ (collectionAfter 0 none true [.insert "b" 1, .insert "a" 2]).byValue (some 2) := by
  rw [(collection_byValue 0 none true _ _).2.1]
  exact ⟨by decide +kernel, by simp⟩

example : (2, "a") ∈ (exampleGroup.run [.map (.insert "b" 1), .map (.insert "a" 2)]).2.byValue
    (some 2) := by
  rw [(group_byValue _ (exampleGroup_reach _) _).2.1]
  exact ⟨by decide +kernel, by simp⟩

/-! ### C17: extremes -/

/-- **C17 (partial).** `minKey(min)` returns the least stored key ≥ min if every collection
has a key ≥ min, and raises ValueError otherwise.  Missing: groups with keys where
some collection has none - there the claim is false (`group_minKey_counterexample`). -/
theorem group_minKey_partial (g : CGroup V) (hg : GroupReach g) (mn : Option String) :
    ((∀ c ∈ g.collections, ∃ k, c.get k ≠ none ∧ ∀ a, mn = some a → a ≤ k) →
      ∃ k, g.minKey mn = .ok k ∧ CGroup.InRange g mn none k ∧
        ∀ k', CGroup.InRange g mn none k' → k ≤ k') ∧
    ((∃ c ∈ g.collections, ∀ k, c.get k ≠ none → ∃ a, mn = some a ∧ k < a) →
      g.minKey mn = .error .valueError) := by
  rcases CGroup.minKey_spec hg.inv mn with ⟨k, h1, h2, h3, h4, h5⟩ | ⟨h1, c, hc, h2⟩
  · refine ⟨fun _ => ⟨k, h1, ⟨h2, h3, by simp⟩, fun k' hk' => h4 k' hk'.1 hk'.2.1⟩, ?_⟩
    rintro ⟨c, hc, h⟩
    obtain ⟨x, hx, hxa⟩ := h5 c hc
    obtain ⟨a, ha, hlt⟩ := h x hx
    exact absurd (hxa a ha) (not_le.2 hlt)
  · refine ⟨fun h => ?_, fun _ => h1⟩
    obtain ⟨x, hx, hxa⟩ := h c hc
    obtain ⟨a, ha, hlt⟩ := h2 x hx
    exact absurd (hxa a ha) (not_le.2 hlt)

/-- **C17 (partial), `maxKey`.** -/
theorem group_maxKey_partial (g : CGroup V) (hg : GroupReach g) (mx : Option String) :
    ((∀ c ∈ g.collections, ∃ k, c.get k ≠ none ∧ ∀ a, mx = some a → k ≤ a) →
      ∃ k, g.maxKey mx = .ok k ∧ CGroup.InRange g none mx k ∧
        ∀ k', CGroup.InRange g none mx k' → k' ≤ k) ∧
    ((∃ c ∈ g.collections, ∀ k, c.get k ≠ none → ∃ a, mx = some a ∧ a < k) →
      g.maxKey mx = .error .valueError) := by
  rcases CGroup.maxKey_spec hg.inv mx with ⟨k, h1, h2, h3, h4, h5⟩ | ⟨h1, c, hc, h2⟩
  · refine ⟨fun _ => ⟨k, h1, ⟨h2, by simp, h3⟩, fun k' hk' => h4 k' hk'.1 hk'.2.2⟩, ?_⟩
    rintro ⟨c, hc, h⟩
    obtain ⟨x, hx, hxa⟩ := h5 c hc
    obtain ⟨a, ha, hlt⟩ := h x hx
    exact absurd (hxa a ha) (not_le.2 hlt)
  · refine ⟨fun h => ?_, fun _ => h1⟩
    obtain ⟨x, hx, hxa⟩ := h c hc
    obtain ⟨a, ha, hlt⟩ := h2 x hx
    exact absurd (hxa a ha) (not_le.2 hlt)

/-- **C17 (partial), `popitem`.** With no empty collection it removes and returns the item
with the least key; otherwise it raises ValueError and changes nothing. -/
theorem group_popitem_partial (g : CGroup V) (hg : GroupReach g) :
    ((∀ c ∈ g.collections, ∃ k, c.get k ≠ none) →
      ∃ k v, g.popitem.1 = .ok (k, v) ∧ g.view k = some v ∧ (∀ k', g.view k' ≠ none → k ≤ k') ∧
        g.popitem.2.view = Map.remove g.view k) ∧
    ((∃ c ∈ g.collections, ∀ k, c.get k = none) → g.popitem = (.error .valueError, g)) := by
  rcases (CGroup.popitem_step hg.inv).2 with ⟨h1, c, hc, h2⟩ | ⟨h1, h2⟩
  · refine ⟨fun h => ?_, fun _ => h1⟩
    obtain ⟨k, hk⟩ := h c hc
    exact absurd (h2 k) hk
  · refine ⟨fun _ => ?_, fun ⟨c, hc, h⟩ => ?_⟩
    · cases hp : g.popitem with
      | mk r g' =>
        rw [hp] at h1
        generalize hv : g'.view = v' at h1 ⊢
        cases r with
        | error e =>
          simp only [Except.map] at h1
          cases h1 with
          | popitemEmpty h =>
            exfalso
            cases hg' : g.collections with
            | nil => exact hg.inv.ne hg'
            | cons c cs =>
              obtain ⟨k, hk⟩ := h2 c (by rw [hg']; simp)
              exact (CGroup.view_ne_none hg.inv k).2 ⟨c, by rw [hg']; simp, hk⟩ (h k)
        | ok p =>
          simp only [Except.map] at h1
          cases h1 with
          | popitem a b => exact ⟨p.1, p.2, rfl, a, b, rfl⟩
    · obtain ⟨k, hk⟩ := h2 c hc
      exact absurd (h k) hk

/-- **C17 (counterexample).** A group that holds the key "a" but has an empty collection:
`minKey`, `maxKey` and `popitem` raise ValueError. -/
theorem group_minKey_counterexample :
    ∃ g : CGroup Nat, GroupReach g ∧ g.view "a" ≠ none ∧ g.minKey none = .error .valueError ∧
      g.maxKey none = .error .valueError ∧ g.popitem.1 = .error .valueError := by
  refine ⟨(exampleGroup.run [.map (.insert "a" 1)]).2, exampleGroup_reach _, ?_, ?_, ?_, ?_⟩ <;>
    decide +kernel

example : (exampleGroup.run [.map (.insert "b" 1), .map (.insert "a" 2)]).2.popitem.1 =
    .ok ("a", 2) := by decide +kernel

end Verif.Props
