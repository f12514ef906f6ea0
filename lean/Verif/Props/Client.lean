import Verif.Spec.Client
import Verif.Props.Limited

/-!
# No client can tell a database from a transactional map with limits (C156)
-/
namespace Verif.Props.Client
open Verif Verif.Storage Verif.Spec Verif.Db Verif.Props Verif.Props.Limited
variable {V : Type}

/-! ### Figures -/

theorem used_eq {n room : Nat} {c : Container V} {b : Box V} (h : Holds n room c b) : c.used = b.used := by
  have hk : {id | b.map id ≠ none} = ↑((c.heap c.primary).keys.toFinset) := by
    ext id
    simp only [Set.mem_ofPred_eq, List.coe_toFinset]
    rw [CGroup.mem_keys h.group.inv, h.group.view]
  unfold Box.used Container.used
  rw [hk, Set.ncard_coe_finset, List.toFinset_card_of_nodup (CGroup.keys_nodup h.group.inv), CGroup.size_keys]

theorem capacity_eq {n room : Nat} {c : Container V} {b : Box V} (h : Holds n room c b) : c.capacity = (limits n room).total := h.group.max

theorem usage_eq {n room : Nat} (hn : 1 ≤ n) (hr : 1 ≤ room) {c : Container V} {b : Box V} (h : Holds n room c b) :
    c.usage = .ok ((b.used : ℚ) / (limits n room).total) := by
  have hm : (c.heap c.primary).maxSize = n * room := h.group.max
  have hu : (c.heap c.primary).size = b.used := used_eq h
  unfold Container.usage CGroup.usage
  rw [hm, hu, if_neg (Nat.mul_pos hn hr).ne']
  rfl

theorem crowded_iff {n room : Nat} {c : Container V} {b : Box V} (h : Holds n room c b) (pct : Nat) :
    b.Crowded (limits n room) pct ↔ ∃ x ∈ (c.heap c.primary).collections, pct * room < 100 * x.size := by
  have hl := h.group.len
  have hs : ∀ (id : String) (x : Collection V) (k : Nat), (c.heap c.primary).collections[hashId id % (c.heap c.primary).collections.length]? = some x →
      (b.map.AtLeast (fun y => (limits n room).slot y = (limits n room).slot id) k ↔ k ≤ x.size) := by
    intro id x k hx
    have := slot_iff h.group.inv hx k
    rw [h.group.view, hl] at this
    exact this
  constructor
  · rintro ⟨id, k, h1, h2⟩
    obtain ⟨x, hx⟩ := CGroup.coll_exists h.group.inv.ne id
    refine ⟨x, List.mem_of_getElem? hx, lt_of_lt_of_le h1 ?_⟩
    exact Nat.mul_le_mul_left _ ((hs id x k hx).1 h2)
  · rintro ⟨x, hx, h1⟩
    obtain ⟨i, hi⟩ := List.getElem?_of_mem hx
    have hpos : x.keys ≠ [] := by
      intro h0
      have : x.size = 0 := by
        have : x.keys.length = 0 := by rw [h0]; rfl
        simpa [Collection.size, Collection.keys, Tree.keys] using this
      rw [this] at h1; omega
    obtain ⟨id, hid⟩ := List.exists_mem_of_ne_nil _ hpos
    have hg : x.get id ≠ none := by
      have : id ∈ Tree.keys x.tree := hid
      intro h0
      exact (Tree.get_eq_none_iff _ _).1 h0 this
    have he := h.group.inv.routed _ x hi id hg
    rw [← he] at hi
    exact ⟨id, x.size, h1, (hs id x _ hi).2 le_rfl⟩

theorem status_eq {n room : Nat} (hr : 1 ≤ room) {c : Container V} {b : Box V} (h : Holds n room c b) : c.status = .ok (b.status (limits n room)) := by
  have hx : ∀ x ∈ (c.heap c.primary).collections, x.status = Collection.statusOf x.size room := fun x hx => by
    unfold Collection.status; rw [(h.group.coll hx).1]
  have key : ∀ M, M ∈ (c.heap c.primary).collections.map Collection.status → (∀ s ∈ (c.heap c.primary).collections.map Collection.status, s ≤ M) →
      M = b.status (limits n room) := by
    intro M hM hmax
    obtain ⟨x, hxm, rfl⟩ := List.mem_map.1 hM
    have hle : ∀ y ∈ (c.heap c.primary).collections, Collection.statusOf y.size room ≤ Collection.statusOf x.size room := fun y hy => by
      rw [← hx y hy, ← hx x hxm]; exact hmax _ (List.mem_map.2 ⟨y, hy, rfl⟩)
    obtain ⟨s90, s80, s70, s60, s0⟩ := status_exact x.size room hr
    have c89 := crowded_iff h 89
    have c79 := crowded_iff h 79
    have c69 := crowded_iff h 69
    have c59 := crowded_iff h 59
    have lift : ∀ p, (p = 59 ∨ p = 69 ∨ p = 79 ∨ p = 89) → ((∃ y ∈ (c.heap c.primary).collections, p * room < 100 * y.size) ↔ p * room < 100 * x.size) := by
      intro p hp
      refine ⟨?_, fun hh => ⟨x, hxm, hh⟩⟩
      rintro ⟨y, hy, h1⟩
      have := hle y hy
      obtain ⟨t90, t80, t70, t60, t0⟩ := status_exact y.size room hr
      by_contra hcon
      have ex : 100 * x.size ≤ 59 * room ∨ (59 * room < 100 * x.size ∧ 100 * x.size ≤ 69 * room) ∨
        (69 * room < 100 * x.size ∧ 100 * x.size ≤ 79 * room) ∨ (79 * room < 100 * x.size ∧ 100 * x.size ≤ 89 * room) ∨ 89 * room < 100 * x.size := by omega
      have ey : 100 * y.size ≤ 59 * room ∨ (59 * room < 100 * y.size ∧ 100 * y.size ≤ 69 * room) ∨
        (69 * room < 100 * y.size ∧ 100 * y.size ≤ 79 * room) ∨ (79 * room < 100 * y.size ∧ 100 * y.size ≤ 89 * room) ∨ 89 * room < 100 * y.size := by omega
      rcases ex with e | e | e | e | e <;> [have w := s0.2 e; have w := s60.2 e; have w := s70.2 e; have w := s80.2 e; have w := s90.2 e] <;>
        (rcases ey with f | f | f | f | f <;> [have v := t0.2 f; have v := t60.2 f; have v := t70.2 f; have v := t80.2 f; have v := t90.2 f] <;>
          rcases hp with rfl | rfl | rfl | rfl <;> omega)
    rw [hx x hxm]
    unfold Box.status
    rw [c89, c79, c69, c59, lift 89 (by omega), lift 79 (by omega), lift 69 (by omega), lift 59 (by omega)]
    split_ifs with a1 a2 a3 a4
    · exact s90.2 a1
    · exact s80.2 ⟨a2, by omega⟩
    · exact s70.2 ⟨a3, by omega⟩
    · exact s60.2 ⟨a4, by omega⟩
    · exact s0.2 (by omega)
  have hst : c.status = (c.heap c.primary).status := rfl
  rw [hst]
  unfold CGroup.status
  rcases hms : (c.heap c.primary).collections.map Collection.status with _ | ⟨m, ms⟩
  · exact absurd (List.map_eq_nil_iff.1 hms) h.group.inv.ne
  · obtain ⟨f1, f2, f3⟩ := foldl_max_nat ms m
    rw [hms] at key
    refine congrArg Except.ok (key _ ?_ ?_)
    · rcases f1 with f1 | f1
      · rw [f1]; exact List.mem_cons_self ..
      · exact List.mem_cons_of_mem _ f1
    · intro s hs
      rcases List.mem_cons.1 hs with rfl | hs
      · exact f2
      · exact f3 s hs

/-! ### Requests -/

variable [Truthy V]

theorem item_eq (hV : AllTruthy V) {n room : Nat} {c : Conn V} {b : Box V} (h : Holds n room c.tm.work b) (sel : Conn.Selector) :
    c.subscript sel = b.item sel := by
  cases sel with
  | other => rfl
  | str id =>
    obtain ⟨k, hk, hk0⟩ := Container.has_pos h.inv id
    rw [h.first] at hk0
    unfold Conn.subscript Conn.getItem Box.item
    simp only
    rw [hk]
    cases k with
    | zero =>
      have : b.map id = none := by
        by_contra h0; exact absurd (hk0.2 h0) (by omega)
      simp [this, Except.map]
    | succ k =>
      have : b.map id ≠ none := hk0.1 (by omega)
      simp [this, h.read hV id, Except.map]
  | iter ids =>
    have hm : ∀ ids : List String, (ids.mapM fun id => c.tm.work.read id) = .ok (ids.map b.map) := by
      intro ids
      induction ids with
      | nil => rfl
      | cons i is ih => rw [List.mapM_cons, ih, h.read hV i]; rfl
    have ht : (ids.map b.map).any truthyOpt = true ↔ ¬ ∀ id ∈ ids, b.map id = none := by
      rw [List.any_eq_true]
      constructor
      · rintro ⟨o, ho, h1⟩ hall
        obtain ⟨id, hid, rfl⟩ := List.mem_map.1 ho
        rw [hall id hid] at h1; cases h1
      · intro hall
        push Not at hall
        obtain ⟨id, hid, h1⟩ := hall
        obtain ⟨v, hv⟩ := Option.ne_none_iff_exists'.1 h1
        exact ⟨b.map id, List.mem_map.2 ⟨id, hid, rfl⟩, by rw [hv]; exact hV v⟩
    unfold Conn.subscript Conn.getItems Box.item
    simp only
    rw [hm]
    simp only
    by_cases hall : ∀ id ∈ ids, b.map id = none
    · rw [if_pos hall, if_neg (fun hh => (ht.1 hh) hall)]; rfl
    · rw [if_neg hall, if_pos (ht.2 hall)]; rfl

/-- The session and the ideal one. -/
structure Alike (n room : Nat) (c : Conn V) (s : Ideal V) : Prop where
  same : Limited.Same n room c s.limited
  shown : c.flag = s.shown

omit [Truthy V] in
theorem commit_answer {n room : Nat} {c : Conn V} {s : Spec.Limited V} (h : Limited.Same n room c s) (ok : Bool) : (c.tm.commit ok).1 = s.commitAnswer ok := by
  unfold Tm.commit Spec.Limited.commitAnswer
  rw [h.broken]
  cases s.broken <;> cases ok <;> rfl

/-- Every request is answered alike, and leaves both alike. -/
theorem ask_alike (hV : AllTruthy V) {n room : Nat} (hn : 1 ≤ n) (hr : 1 ≤ room) {c : Conn V} {s : Ideal V} (h : Alike n room c s) (q : Ask V) :
    (c.ask q).1 = (s.ask (limits n room) q).1 ∧ Alike n room (c.ask q).2 (s.ask (limits n room) q).2 := by
  obtain ⟨hs, hf⟩ := h
  cases q with
  | call op ok =>
    obtain ⟨h1, h2⟩ := hs.call hV op ok
    refine ⟨congrArg Reply.call h2, h1, ?_⟩
    refine Eq.trans ?_ hf
    show (c.call op ok).2.flag = c.flag
    unfold Conn.call
    split_ifs <;> rfl
  | read id => exact ⟨congrArg Reply.read (hs.work.read hV id), hs, hf⟩
  | item sel => exact ⟨congrArg Reply.item (item_eq hV hs.work sel), hs, hf⟩
  | strict => exact ⟨congrArg Reply.flag hs.work.strict, hs, hf⟩
  | autocommit => exact ⟨congrArg Reply.flag hf, hs, hf⟩
  | capacity => exact ⟨congrArg (fun x => Reply.number (.ok x)) (capacity_eq hs.work), hs, hf⟩
  | used => exact ⟨congrArg (fun x => Reply.number (.ok x)) (used_eq hs.work), hs, hf⟩
  | usage => exact ⟨congrArg Reply.ratio (usage_eq hn hr hs.work), hs, hf⟩
  | status => exact ⟨congrArg Reply.number (status_eq hr hs.work), hs, hf⟩
  | setAutocommit value =>
    have h2 := hs.step hV (.setAutocommit value)
    cases value with
    | none => exact ⟨rfl, h2, hf⟩
    | some v => exact ⟨rfl, h2, rfl⟩
  | enter => exact ⟨rfl, hs.step hV .enter, hf⟩
  | exit raised ok =>
    refine ⟨congrArg Reply.done ?_, hs.step hV (.exit raised ok), rfl⟩
    have hc : (Tm.commit { c.tm with autocommit := true } ok).1 = s.limited.commitAnswer ok := by
      rw [← commit_answer hs ok]
      unfold Tm.commit
      simp only
      split_ifs <;> rfl
    unfold Conn.exit Tm.exit
    cases raised with
    | true => rfl
    | false =>
      simp only [Bool.false_eq_true, if_false]
      rw [← hc]
      rcases Tm.commit { c.tm with autocommit := true } ok with ⟨e | u, t⟩ <;> rfl
  | commit ok => exact ⟨congrArg Reply.done (commit_answer hs ok), hs.commit ok c.flag, hf⟩
  | abort => exact ⟨rfl, hs.step hV .abort, hf⟩
  | crash a => exact ⟨rfl, hs.step hV (.crash a), rfl⟩

/-- **C156.** A client – whatever it asks, deciding by all answers so far – gets back the same from the session as from the map with limits. -/
theorem no_client_can_tell (hV : AllTruthy V) {n room : Nat} (hn : 1 ≤ n) (hr : 1 ≤ room) (client : Client V) (k : Nat) :
    ∀ {c : Conn V} {s : Ideal V}, Alike n room c s → ∀ got, converse Conn.ask client k c got = converse (Ideal.ask (limits n room)) client k s got := by
  induction k with
  | zero => intro c s _ got; rfl
  | succ k ih =>
    intro c s h got
    obtain ⟨h1, h2⟩ := ask_alike hV hn hr h (client got)
    unfold converse
    rw [h1]
    exact ih h2 _

/-- **C156, from the start.** For every database made by `ContainerDb.new` with a positive capacity, every client, and any number of requests. -/
theorem database_is_ideal (hV : AllTruthy V) (d : Disk V) (capacity : Nat) (hcap : 1 ≤ capacity) (create strict a : Bool) :
    ∃ conn n, numberOfCollections capacity defaultCollectionSize = .ok n ∧
      (newDb d capacity create strict).1.result = .ok () ∧
      connect ((newDb d capacity create strict).1.final (newDb d capacity create strict).2) a = .ok conn ∧
      ∀ (client : Client V) (k : Nat), converse Conn.ask client k conn [] =
        converse (Ideal.ask (limits n (min (n * capacity) defaultCollectionSize))) client k
          ⟨⟨⟨Map.empty, false⟩, ⟨Map.empty, false⟩, true, false⟩, a⟩ [] := by
  obtain ⟨conn, n, h1, h2, h3, h4, h5⟩ := new_same (V := V) d capacity hcap create strict a
  have hn : 1 ≤ n := by
    rcases Nat.eq_zero_or_pos n with h | h
    · obtain ⟨n', k1, -, k3, -⟩ := numberOfCollections_correct capacity defaultCollectionSize (by decide)
      rw [h1] at k1
      have := Except.ok.inj k1
      subst this
      subst h
      omega
    · exact h
  refine ⟨conn, n, h1, h2, h3, fun client k => no_client_can_tell hV hn ?_ client k ⟨h4, h5⟩ []⟩
  exact le_min (Nat.mul_pos hn hcap) (by decide)

/-! ### A concrete client -/

local instance : Truthy Nat := ⟨fun _ => true⟩

/-- Turns `strict` on in a block, fills the database (one slot for two ids), and then asks for the figures; if the third id is refused it deletes the
first. -/
def filler : Client Nat
  | [] => .enter
  | [_] => .call (.strict (some true)) true
  | [_, _] => .exit false true
  | [_, _, _] => .call (.create "a" 1) true
  | [_, _, _, _] => .call (.create "b" 2) true
  | [_, _, _, _, _] => .call (.create "c" 3) true
  | [_, _, _, _, _, .call (.error _)] => .call (.delete "a") true
  | [_, _, _, _, _, .call (.ok _)] => .abort
  | [_, _, _, _, _, _, _] => .used
  | _ => .item (.iter ["a", "b"])

/-- What the session answers it: it meets the hypotheses, is refused the third id and sees the deletion. -/
example : let c : Container Nat := ⟨fun _ => ⟨[Collection.new 0 (some 2) false]⟩, 1, [0], 0⟩
    let conn : Conn Nat := { tm := { work := c, committed := c }, flag := true }
    Alike 1 2 conn ⟨⟨⟨Map.empty, false⟩, ⟨Map.empty, false⟩, true, false⟩, true⟩ ∧
    (converse Conn.ask filler 9 conn []).map (fun r => r matches .call (.error .groupCapacity)) =
      [false, false, false, false, false, true, false, false, false] ∧
    (converse Conn.ask filler 9 conn []).map (fun r => r matches .number (.ok 1)) =
      [false, false, false, false, false, false, false, true, false] ∧
    (converse Conn.ask filler 9 conn []).map (fun r => r matches .item (.ok (.inr [none, some 2]))) =
      [false, false, false, false, false, false, false, false, true] := by
  intro c conn
  have hg : (⟨[Collection.new 0 (some 2) false]⟩ : CGroup Nat).Inv := by
    refine ⟨by simp, fun x hx => ?_, fun i x hx k hk => ?_⟩
    · rw [List.mem_singleton.1 hx]; exact List.Pairwise.nil
    · cases i with
      | zero => simp [Nat.mod_one]
      | succ i => simp at hx
  have hi : Container.Inv (⟨fun _ => ⟨[Collection.new 0 (some 2) false]⟩, 1, [0], 0⟩ : Container Nat) :=
    ⟨fun _ _ => hg, hg, by simp, Nat.one_pos, by simp⟩
  have hh : Holds 1 2 c (⟨Map.empty, false⟩ : Box Nat) := by
    refine ⟨hi, rfl, hg, rfl, ?_⟩
    funext k
    obtain ⟨x, hx⟩ := CGroup.coll_exists hg.ne k
    show (⟨[Collection.new 0 (some 2) false]⟩ : CGroup Nat).view k = _
    rw [CGroup.view_eq hx, List.mem_singleton.1 (List.mem_of_getElem? hx)]
    rfl
  exact ⟨⟨⟨hh, hh, rfl, rfl⟩, rfl⟩, by decide +kernel, by decide +kernel, by decide +kernel⟩

end Verif.Props.Client
