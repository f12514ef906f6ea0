import Verif.Props.SharedLimits

/-!
# By how much sessions together can exceed the limits (C158)
-/
namespace Verif.Props.Overshoot
open Verif Verif.Storage Verif.Spec Verif.Db Verif.Props Verif.Props.Limited
variable {V : Type}

/-! ### Counting -/

/-- At most `n` different ids with the property are in the map. -/
def AtMost (m : Map V) (P : String → Prop) (n : Nat) : Prop := ∀ ids : List String, ids.Nodup → (∀ id ∈ ids, m id ≠ none ∧ P id) → ids.length ≤ n

theorem atMost_iff {m : Map V} {P : String → Prop} {n : Nat} : AtMost m P n ↔ ¬ m.AtLeast P (n + 1) := by
  constructor
  · rintro h ⟨ids, h1, h2, h3⟩
    have := h ids h1 h3; omega
  · intro h ids h1 h3
    by_contra hn
    exact h ⟨ids.take (n + 1), h1.sublist (List.take_sublist _ _), by rw [List.length_take]; omega, fun x hx => h3 x (List.mem_of_mem_take hx)⟩

theorem AtMost.mono {m m' : Map V} {P P' : String → Prop} {n : Nat} (h : AtMost m P n) (hs : ∀ id, m' id ≠ none → P' id → m id ≠ none ∧ P id) :
    AtMost m' P' n := fun ids h1 h2 => h ids h1 fun id hid => hs id (h2 id hid).1 (h2 id hid).2

/-- One id more. -/
theorem AtMost.set {m : Map V} {P : String → Prop} {n : Nat} (h : AtMost m P n) (id : String) (v : V) : AtMost (m.set id v) P (n + 1) := by
  intro ids h1 h2
  have := h (ids.erase id) (h1.erase id) fun x hx => by
    have hne : x ≠ id := fun e => by subst e; exact h1.not_mem_erase hx
    have := h2 x (List.mem_of_mem_erase hx)
    simpa [Map.set, hne] using this
  have hl := List.length_erase (a := id) (l := ids)
  split_ifs at hl <;> omega

/-- Ids that belong to `k` owners. -/
theorem split (own : String → Nat) (B : Nat) : ∀ (k : Nat) (ids : List String), (∀ id ∈ ids, own id < k) →
    (∀ i < k, (ids.filter fun id => own id = i).length ≤ B) → ids.length ≤ k * B
  | 0, ids, h, _ => by
    cases ids with
    | nil => simp
    | cons a l => exact absurd (h a List.mem_cons_self) (Nat.not_lt_zero _)
  | k + 1, ids, h, hc => by
    have h1 := split own B k (ids.filter fun id => ¬ own id = k) (fun id hid => by
      rw [List.mem_filter] at hid
      have h2 := h id hid.1
      have h3 : own id ≠ k := by simpa using hid.2
      omega) (fun i hi => by
      rw [List.filter_filter]
      refine le_trans (List.Sublist.length_le ?_) (hc i (by omega))
      refine List.monotone_filter_right _ fun a ha => ?_
      simp only [Bool.and_eq_true, decide_eq_true_eq] at ha ⊢
      exact ha.1)
    have h2 := hc k (by omega)
    have h3 := List.length_eq_length_filter_add (l := ids) (fun id => decide (own id = k))
    have h4 : (ids.filter fun id => !decide (own id = k)) = ids.filter fun id => decide (¬ own id = k) := by
      congr 1; funext id; by_cases h : own id = k <;> simp [h]
    rw [h4] at h3
    rw [Nat.succ_mul]
    omega

/-! ### The invariant -/

/-- Property and bound that strict mode watches: a new id with the property is refused if there are that many already. -/
def Watched (l : Limits) (P : String → Prop) (B : Nat) : Prop :=
  ∀ (V : Type) (b : Box V) (id : String), b.strict = true → b.map id = none → P id → b.refusal l id = none → ¬ b.map.AtLeast P B

/-- A view of a transaction: strict, and if it has ids that the transaction did not begin with, no more than the bound. -/
structure View (P : String → Prop) (B : Nat) (base mem : Box V) : Prop where
  strictBase : base.strict = true
  strict : mem.strict = true
  few : AtMost mem.map P B ∨ ∀ id, P id → mem.map id ≠ none → base.map id ≠ none

/-- Every stored id with the property has an owner among the sessions; each owns no more than the bound, and knew what it owns when its transaction began. -/
structure Owned (P : String → Prop) (B k : Nat) (s : Boxes V) (own : String → Nat) : Prop where
  lt : ∀ id, s.disk.map id ≠ none → own id < k
  few : ∀ i, AtMost s.disk.map (fun id => P id ∧ own id = i) B
  known : ∀ i id, s.disk.map id ≠ none → own id = i → P id → (s.tx i).base.map id ≠ none
  view : ∀ i, View P B (s.tx i).base (s.tx i).mem
  strict : s.disk.strict = true

theorem View.run {l : Limits} {P : String → Prop} {B : Nat} (hw : Watched l P B) {base mem : Box V} (h : View P B base mem) (op : DbOp V)
    (hop : op ≠ .strict (some false)) : View P B base ((mem.apply l op).getD mem) := by
  have write : ∀ id obj, mem.refusal l id = none → View P B base { mem with map := mem.map.set id obj } := by
    intro id obj href
    refine ⟨h.strictBase, h.strict, ?_⟩
    have setNe : ∀ x, x ≠ id → (mem.map.set id obj) x = mem.map x := fun x hx => by simp [Map.set, hx]
    by_cases hin : mem.map id ≠ none ∨ ¬ P id
    · have same : ∀ x, P x → (mem.map.set id obj) x ≠ none → mem.map x ≠ none := fun x hP hx => by
        by_cases e : x = id
        · subst e; rcases hin with hin | hin
          · exact hin
          · exact absurd hP hin
        · rwa [setNe x e] at hx
      rcases h.few with hf | hf
      · exact .inl (hf.mono fun x hx hP => ⟨same x hP hx, hP⟩)
      · exact .inr fun x hP hx => hf x hP (same x hP hx)
    · push Not at hin
      obtain ⟨hn, hP⟩ := hin
      have hno := hw V mem id h.strict hn hP href
      have hpos : 1 ≤ B := by
        rcases Nat.eq_zero_or_pos B with h0 | h0
        · subst h0; exact absurd ⟨[], List.nodup_nil, rfl, by simp⟩ hno
        · exact h0
      left
      have : AtMost mem.map P (B - 1) := atMost_iff.2 (by rw [Nat.sub_add_cancel hpos]; exact hno)
      have := this.set id obj
      rwa [Nat.sub_add_cancel hpos] at this
  cases op with
  | create id obj =>
    simp only [Box.apply]
    split_ifs with hc
    · exact write id obj hc.2
    · exact h
  | update id obj =>
    simp only [Box.apply]
    split_ifs with hc
    · exact write id obj hc
    · exact h
  | delete id =>
    have same : ∀ x, mem.map.remove id x ≠ none → mem.map x ≠ none := fun x hx => by
      unfold Map.remove at hx
      split_ifs at hx with e
      · exact absurd rfl hx
      · exact hx
    refine ⟨h.strictBase, h.strict, ?_⟩
    rcases h.few with hf | hf
    · exact .inl (hf.mono fun x hx hP => ⟨same x hx, hP⟩)
    · exact .inr fun x hP hx => hf x hP (same x hx)
  | strict value =>
    cases value with
    | none => exact h
    | some v =>
      cases v with
      | false => exact absurd rfl hop
      | true => exact ⟨h.strictBase, rfl, h.few⟩

theorem View.start {P : String → Prop} {B : Nat} {b : Box V} (h : b.strict = true) : View P B b b := ⟨h, h, .inr fun _ _ h => h⟩

theorem Owned.setTx {P : String → Prop} {B k : Nat} {s : Boxes V} {own : String → Nat} (h : Owned P B k s own) (i : Nat) {t : BoxTx V}
    (hk : ∀ id, s.disk.map id ≠ none → own id = i → P id → t.base.map id ≠ none) (hv : View P B t.base t.mem) : Owned P B k (s.setTx i t) own := by
  refine ⟨h.lt, h.few, fun j id h1 h2 h3 => ?_, fun j => ?_, h.strict⟩
  all_goals
    unfold Boxes.setTx
    by_cases hj : j = i
    · subst hj; simp only [if_true]
      first | exact hv | exact hk id h1 h2 h3
    · simp only [if_neg hj]
      first | exact h.view j | exact h.known j id h1 h2 h3

open Classical in
theorem Owned.move {l : Limits} {P : String → Prop} {B k : Nat} (hw : Watched l P B) {s : Boxes V} {own : String → Nat} (h : Owned P B k s own) (i : Nat)
    (hi : i < k) (m : Move V) (hm : m ≠ .run (.strict (some false))) : ∃ own', Owned P B k (s.move l i m) own' := by
  cases m with
  | begin => exact ⟨own, h.setTx i (fun _ h1 _ _ => h1) (.start h.strict)⟩
  | abort => exact ⟨own, h.setTx i (fun _ h1 _ _ => h1) (.start h.strict)⟩
  | resize _ _ _ _ => exact ⟨own, h⟩
  | run op =>
    unfold Boxes.move
    simp only
    split_ifs
    · exact ⟨own, h⟩
    · exact ⟨own, h.setTx i (fun id => h.known i id) ((h.view i).run hw op fun e => hm (by rw [e]))⟩
  | commit ok =>
    unfold Boxes.move
    simp only
    split_ifs with hb hc
    · exact ⟨own, h⟩
    · obtain ⟨-, hn, -⟩ := hc
      have hv := h.view i
      have hst : (s.merged i).strict = true := by
        unfold Boxes.merged Box.overlay
        simp only
        split_ifs
        · exact hv.strict
        · exact h.strict
      have hmap : ∀ id, (s.merged i).map id = if (s.tx i).mem.map id ≠ (s.tx i).base.map id then (s.tx i).mem.map id else s.disk.map id := by
        intro id
        by_cases e : (s.tx i).mem.map id = (s.tx i).base.map id <;> simp [Boxes.merged, Box.overlay, e]
      -- the new ids now belong to the session
      let new : String → Prop := fun id => (s.tx i).mem.map id ≠ none ∧ (s.tx i).base.map id = none
      let own' : String → Nat := fun id => if new id then i else own id
      have old : ∀ id, ¬ new id → (s.merged i).map id ≠ none → s.disk.map id ≠ none := by
        intro id h1 h2
        rw [hmap] at h2
        split_ifs at h2 with e
        · rw [hn id e]
          exact fun hb => h1 ⟨h2, hb⟩
        · exact h2
      have mine : ∀ id, P id → own' id = i → (s.merged i).map id ≠ none → (s.tx i).mem.map id ≠ none := by
        intro id hP h1 h2
        by_cases hnew : new id
        · exact hnew.1
        · have h3 : own id = i := by simpa [own', hnew] using h1
          have hb := h.known i id (old id hnew h2) h3 hP
          rw [hmap] at h2
          split_ifs at h2 with e
          · exact h2
          · rw [not_not.1 e]; exact hb
      refine ⟨own', ?_, fun j => ?_, fun j id h1 h2 h3 => ?_, fun j => ?_, hst⟩
      · intro id h1
        by_cases hnew : new id
        · simp only [own', if_pos hnew]; exact hi
        · simp only [own', if_neg hnew]; exact h.lt id (old id hnew h1)
      · show AtMost (s.merged i).map _ B
        by_cases hj : j = i
        · subst hj
          rcases hv.few with hf | hf
          · exact hf.mono fun id h1 h2 => ⟨mine id h2.1 h2.2 h1, h2.1⟩
          · refine (h.few j).mono fun id h1 h2 => ?_
            have hnew : ¬ new id := fun hnew => hf id h2.1 hnew.1 hnew.2
            exact ⟨old id hnew h1, h2.1, by simpa [own', hnew] using h2.2⟩
        · refine (h.few j).mono fun id h1 h2 => ?_
          have hnew : ¬ new id := fun hnew => hj (by have := h2.2; simp only [own', if_pos hnew] at this; exact this.symm)
          exact ⟨old id hnew h1, h2.1, by simpa [own', hnew] using h2.2⟩
      · show ((s.setTx i ⟨s.merged i, s.merged i, false⟩).tx j).base.map id ≠ none
        unfold Boxes.setTx
        by_cases hj : j = i
        · subst hj; simp only [if_true]; exact h1
        · simp only [if_neg hj]
          have hnew : ¬ new id := fun hnew => hj (by simp only [own', if_pos hnew] at h2; exact h2.symm)
          exact h.known j id (old id hnew h1) (by simpa [own', hnew] using h2) h3
      · show View P B ((s.setTx i ⟨s.merged i, s.merged i, false⟩).tx j).base ((s.setTx i ⟨s.merged i, s.merged i, false⟩).tx j).mem
        unfold Boxes.setTx
        by_cases hj : j = i
        · subst hj; simp only [if_true]; exact .start hst
        · simp only [if_neg hj]; exact h.view j
    · exact ⟨own, h.setTx i (fun id => h.known i id) (.start (h.view i).strictBase)⟩

theorem Owned.moves {l : Limits} {P : String → Prop} {B k : Nat} (hw : Watched l P B) (ms : List (Nat × Move V)) : ∀ {s : Boxes V} {own : String → Nat},
    Owned P B k s own → (∀ x ∈ ms, x.1 < k ∧ x.2 ≠ .run (.strict (some false))) → ∃ own', Owned P B k (s.moves l ms) own' := by
  induction ms with
  | nil => intro s own h _; exact ⟨own, h⟩
  | cons x ms ih =>
    intro s own h hm
    obtain ⟨h1, h2⟩ := hm x List.mem_cons_self
    obtain ⟨own', h'⟩ := h.move hw x.1 h1 x.2 h2
    exact ih h' fun y hy => hm y (List.mem_cons_of_mem _ hy)

theorem Owned.count {P : String → Prop} {B k : Nat} {s : Boxes V} {own : String → Nat} (h : Owned P B k s own) : AtMost s.disk.map P (k * B) := by
  intro ids h1 h2
  refine split own B k ids (fun id hid => h.lt id (h2 id hid).1) fun i _ => ?_
  refine h.few i _ (h1.filter _) fun id hid => ?_
  rw [List.mem_filter] at hid
  exact ⟨(h2 id hid.1).1, (h2 id hid.1).2, by simpa using hid.2⟩

/-- The slot of an id and the whole database are watched. -/
theorem watched_slot (l : Limits) (j : Nat) : Watched l (fun id => l.slot id = j) l.room := by
  intro V b id hs hn hP href
  unfold Box.refusal at href
  rw [if_neg (by rw [hs]; simp), if_pos hn] at href
  split_ifs at href with h1 h2
  rw [← hP]; exact h2

theorem watched_all (l : Limits) : Watched l (fun _ => True) l.total := by
  intro V b id hs hn _ href
  unfold Box.refusal at href
  rw [if_neg (by rw [hs]; simp), if_pos hn] at href
  split_ifs at href with h1 h2
  exact h1

variable [DecidableEq V]

theorem stored_few [Truthy V] (hV : AllTruthy V) {n room k : Nat} (hk : 1 ≤ k) {c0 : Container V} {b : Box V} (h0 : Holds n room c0 b)
    (hs : b.strict = true) (ms : List (Nat × Move V)) (hm : ∀ x ∈ ms, x.1 < k ∧ NoResize x.2 ∧ x.2 ≠ .run (.strict (some false)))
    {P : String → Prop} {B : Nat} (hw : Watched (limits n room) P B)
    (hi : ∀ ids : List String, ids.Nodup → (∀ id ∈ ids, c0.read id ≠ .ok none ∧ P id) → ids.length ≤ B)
    (ids : List String) (hn : ids.Nodup) (hids : ∀ id ∈ ids, ((Shared.opened c0).moves ms).disk.read id ≠ .ok none ∧ P id) : ids.length ≤ k * B := by
  have hstart : Owned P B k (Boxes.opened b) (fun _ => 0) := by
    refine ⟨fun _ _ => hk, fun i ids h1 h2 => hi ids h1 fun id hid => ⟨?_, (h2 id hid).2.1⟩, fun _ _ h _ _ => h, fun _ => .start hs, hs⟩
    rw [h0.read hV]
    intro e; injection e with e
    exact (h2 id hid).1 e
  obtain ⟨own, h⟩ := hstart.moves hw ms fun x hx => ⟨(hm x hx).1, (hm x hx).2.2⟩
  obtain ⟨-, hsh⟩ := SharedLimits.sessions_share_limits hV h0 ms fun x hx => (hm x hx).2.1
  refine h.count ids hn fun id hid => ⟨fun e => (hids id hid).1 ?_, (hids id hid).2⟩
  rw [hsh.stored, e]

/-- **C158.** A strict database with one group of `n` collections of size `room`, none of them over-full, used by `k` sessions that do not turn strict mode off:
whatever their schedule, no collection ever holds more than `k * room` objects. -/
theorem slot_overshoot [Truthy V] (hV : AllTruthy V) {n room k : Nat} (hk : 1 ≤ k) {c0 : Container V} {b : Box V} (h0 : Holds n room c0 b)
    (hs : b.strict = true) (ms : List (Nat × Move V)) (hm : ∀ x ∈ ms, x.1 < k ∧ NoResize x.2 ∧ x.2 ≠ .run (.strict (some false))) (j : Nat)
    (hi : ∀ ids : List String, ids.Nodup → (∀ id ∈ ids, c0.read id ≠ .ok none ∧ hashId id % n = j) → ids.length ≤ room)
    (ids : List String) (hn : ids.Nodup) (hids : ∀ id ∈ ids, ((Shared.opened c0).moves ms).disk.read id ≠ .ok none ∧ hashId id % n = j) :
    ids.length ≤ k * room :=
  stored_few hV hk h0 hs ms hm (watched_slot (limits n room) j) hi ids hn hids

/-- **C158.** The same for the whole database: never more than `k` times the number of objects it is made for. -/
theorem total_overshoot [Truthy V] (hV : AllTruthy V) {n room k : Nat} (hk : 1 ≤ k) {c0 : Container V} {b : Box V} (h0 : Holds n room c0 b)
    (hs : b.strict = true) (ms : List (Nat × Move V)) (hm : ∀ x ∈ ms, x.1 < k ∧ NoResize x.2 ∧ x.2 ≠ .run (.strict (some false)))
    (hi : ∀ ids : List String, ids.Nodup → (∀ id ∈ ids, c0.read id ≠ .ok none) → ids.length ≤ n * room)
    (ids : List String) (hn : ids.Nodup) (hids : ∀ id ∈ ids, ((Shared.opened c0).moves ms).disk.read id ≠ .ok none) :
    ids.length ≤ k * (n * room) :=
  stored_few hV hk h0 hs ms hm (watched_all (limits n room)) (fun ids h1 h2 => hi ids h1 fun id hid => (h2 id hid).1) ids hn
    fun id hid => ⟨hids id hid, trivial⟩

/-! ### The bound is reached -/

/-- Session `i` creates the first ids and commits, session `i + 1` the next ones, and so on. -/
def schedule (obj : V) : Nat → List (List String) → List (Nat × Move V)
  | _, [] => []
  | i, ids :: rest => ids.map (fun id => (i, .run (.create id obj))) ++ (i, .commit true) :: schedule obj (i + 1) rest

omit [DecidableEq V] in
theorem moves_append (l : Limits) (ms ms' : List (Nat × Move V)) : ∀ s : Boxes V, s.moves l (ms ++ ms') = (s.moves l ms).moves l ms' := by
  induction ms with
  | nil => intro s; rfl
  | cons x ms ih => intro s; exact ih _

omit [DecidableEq V] in
/-- A session creates ids while there is room. -/
theorem fill {n room : Nat} (hn : 1 ≤ n) (obj : V) (i : Nat) (ids : List String) : ∀ (s : Boxes V) (had : List String),
    (s.tx i).broken = false → (s.tx i).mem.strict = true → (∀ id, (s.tx i).mem.map id ≠ none ↔ id ∈ had) → (had ++ ids).Nodup →
    (had ++ ids).length ≤ room →
    let s' := s.moves (limits n room) (ids.map fun id => (i, .run (.create id obj)))
    s'.disk = s.disk ∧ (∀ j, j ≠ i → s'.tx j = s.tx j) ∧ (s'.tx i).broken = false ∧ (s'.tx i).base = (s.tx i).base ∧ (s'.tx i).mem.strict = true ∧
      ∀ id, (s'.tx i).mem.map id ≠ none ↔ id ∈ had ++ ids := by
  induction ids with
  | nil => intro s hv hb hs hm _ _; exact ⟨rfl, fun _ _ => rfl, hb, rfl, hs, by simpa [Boxes.moves] using hm⟩
  | cons a ids ih =>
    intro s hv hb hs hm hnd hl
    have hna : (s.tx i).mem.map a = none := by
      by_contra h
      have h1 := (hm a).1 h
      have := List.nodup_append.1 hnd
      exact this.2.2 a h1 a List.mem_cons_self rfl
    have few : ∀ P : String → Prop, ∀ N, room ≤ N → ¬ (s.tx i).mem.map.AtLeast P N := by
      rintro P N hN ⟨xs, x1, x2, x3⟩
      have h1 := (x1.subperm fun x hx => (hm x).1 (x3 x hx).1).length_le
      simp only [List.length_append, List.length_cons] at hl
      omega
    have href : (s.tx i).mem.refusal (limits n room) a = none := by
      unfold Box.refusal
      rw [if_neg (by rw [hs]; simp), if_pos hna, if_neg (few _ _ (by
        show room ≤ n * room
        exact Nat.le_mul_of_pos_left _ hn)), if_neg (show ¬ Box.SlotFull (limits n room) (s.tx i).mem a from few _ _ (le_refl _))]
    have hstep : s.move (limits n room) i (.run (.create a obj)) =
        s.setTx i { s.tx i with mem := { (s.tx i).mem with map := (s.tx i).mem.map.set a obj } } := by
      unfold Boxes.move Box.apply
      simp only
      rw [hb, if_neg (by simp), if_pos ⟨hna, href⟩]; rfl
    have hself : ∀ t, (s.setTx i t).tx i = t := fun t => by simp [Boxes.setTx]
    obtain ⟨i1, i2, i3, i4, i5, i6⟩ := ih (s.setTx i { s.tx i with mem := { (s.tx i).mem with map := (s.tx i).mem.map.set a obj } }) (hv ++ [a])
      (by rw [hself]; exact hb) (by rw [hself]; exact hs)
      (fun id => by
        rw [hself]
        by_cases e : id = a
        · subst e; simp [Map.set]
        · simp [Map.set, e, hm id])
      (by simpa using hnd) (by simpa using hl)
    have hmv : s.moves (limits n room) ((a :: ids).map fun id => (i, .run (.create id obj))) =
        (s.move (limits n room) i (.run (.create a obj))).moves (limits n room) (ids.map fun id => (i, .run (.create id obj))) := rfl
    simp only
    rw [hmv, hstep]
    refine ⟨i1, fun j hj => ?_, i3, ?_, i5, by simpa using i6⟩
    · rw [i2 j hj]; simp [Boxes.setTx, hj]
    · rw [i4, hself]

omit [DecidableEq V] in
theorem fill_all {n room : Nat} (hn : 1 ≤ n) (obj : V) (chunks : List (List String)) : ∀ (i : Nat) (s : Boxes V) (had : List String),
    (∀ j, i ≤ j → s.tx j = ⟨⟨Map.empty, true⟩, ⟨Map.empty, true⟩, false⟩) → s.disk.strict = true → (∀ id, s.disk.map id ≠ none ↔ id ∈ had) →
    (had ++ chunks.flatten).Nodup → (∀ c ∈ chunks, c.length ≤ room) →
    ∀ id, (s.moves (limits n room) (schedule obj i chunks)).disk.map id ≠ none ↔ id ∈ had ++ chunks.flatten := by
  induction chunks with
  | nil => intro i s hv _ _ hm _ _; simpa [schedule, Boxes.moves] using hm
  | cons c chunks ih =>
    intro i s hv ht hst hm hnd hl
    have hti := ht i (le_refl _)
    rw [List.flatten_cons] at hnd
    have hnd' := List.nodup_append.1 hnd
    have hcn := (List.nodup_append.1 hnd'.2.1).1
    obtain ⟨f1, f2, f3, f4, f5, f6⟩ := fill (V := V) hn obj i c s [] (by rw [hti]) (by rw [hti]) (by rw [hti]; simp [Map.empty]) (by simpa using hcn)
      (by simpa using hl c List.mem_cons_self)
    set s' := s.moves (limits n room) (c.map fun id => (i, .run (.create id obj))) with hs'
    simp only [List.nil_append] at f6
    rw [hti] at f4
    have hcm : s'.Commits i true := by
      refine ⟨rfl, fun id h => ?_, fun h => ?_⟩
      · rw [f4] at h ⊢
        have hin : id ∈ c := (f6 id).1 h
        rw [f1]
        by_contra hx
        exact hnd'.2.2 id ((hm id).1 hx) id (List.mem_append_left _ hin) rfl
      · rw [f5, f4] at h; exact absurd rfl h
    have hstep : s'.move (limits n room) i (.commit true) = { s'.setTx i ⟨s'.merged i, s'.merged i, false⟩ with disk := s'.merged i } := by
      unfold Boxes.move
      simp only
      rw [f3, if_neg (by simp), if_pos hcm]
    have hmap : ∀ id, (s'.merged i).map id ≠ none ↔ id ∈ hv ++ c := by
      intro id
      unfold Boxes.merged Box.overlay
      simp only
      rw [f4]
      by_cases h : (s'.tx i).mem.map id = none
      · have hnc : id ∉ c := fun hin => (f6 id).2 hin h
        simp [h, Map.empty, f1, hnc, hm id]
      · have hc : id ∈ c := (f6 id).1 h
        simp [h, Map.empty, hc]
    have hstr : (s'.merged i).strict = true := by
      unfold Boxes.merged Box.overlay
      simp [f4, f5, f1, hst]
    have := ih (i + 1) (s'.move (limits n room) i (.commit true)) (hv ++ c) (fun j hj => by
        rw [hstep]
        show (s'.setTx i _).tx j = _
        have hne : j ≠ i := by omega
        simp only [Boxes.setTx, if_neg hne]
        rw [f2 j hne]; exact ht j (by omega))
      (by rw [hstep]; exact hstr) (by rw [hstep]; exact hmap) (by simpa using hnd) (fun x hx => hl x (List.mem_cons_of_mem _ hx))
    intro id
    have hmv : s.moves (limits n room) (schedule obj i (c :: chunks)) =
        (s'.move (limits n room) i (.commit true)).moves (limits n room) (schedule obj (i + 1) chunks) := by
      show s.moves _ (c.map _ ++ _) = _
      rw [moves_append]; rfl
    rw [hmv, this id]
    simp

/-- **C158, the bound is reached.** On an empty strict database `k` sessions that have all begun store `k` lists of up to `room` new ids each, all of them,
even if they all belong to one collection. -/
theorem overshoot_reached [Truthy V] (hV : AllTruthy V) {n room : Nat} {c0 : Container V} (h0 : Holds n room c0 ⟨Map.empty, true⟩) (obj : V)
    (chunks : List (List String)) (hn : chunks.flatten.Nodup) (hl : ∀ c ∈ chunks, c.length ≤ room) (id : String) :
    ((Shared.opened c0).moves (schedule obj 0 chunks)).disk.read id ≠ .ok none ↔ id ∈ chunks.flatten := by
  have hpos : 1 ≤ n := by
    rcases Nat.eq_zero_or_pos n with h | h
    · subst h; exact absurd (List.length_eq_zero_iff.1 h0.group.len) h0.group.inv.ne
    · exact h
  have hno : ∀ (cs : List (List String)) (i : Nat), ∀ x ∈ schedule obj i cs, NoResize x.2 := by
    intro cs
    induction cs with
    | nil => intro i x hx; simp [schedule] at hx
    | cons c cs ih =>
      intro i x hx
      simp only [schedule, List.mem_append, List.mem_map, List.mem_cons] at hx
      rcases hx with ⟨y, -, rfl⟩ | rfl | hx
      · trivial
      · trivial
      · exact ih _ x hx
  obtain ⟨-, hsh⟩ := SharedLimits.sessions_share_limits hV h0 (schedule obj 0 chunks) (hno chunks 0)
  have := fill_all (V := V) hpos obj chunks 0 (Boxes.opened ⟨Map.empty, true⟩) [] (fun _ _ => rfl) rfl (by simp [Boxes.opened, Map.empty]) (by simpa using hn) hl id
  rw [hsh.stored]
  simp only [List.nil_append] at this
  rw [← this]
  simp

/-! ### Concrete cases -/

/-- The hypotheses are met by every new strict container; with a single collection for `mc` objects, three sessions store `3 * mc` of them if there are
that many ids. -/
example [Truthy V] (hV : AllTruthy V) (capacity mc : Nat) (hc : 1 ≤ capacity) (hm : 1 ≤ mc) : ∃ (c0 : Container V) (n : Nat),
    Container.new capacity mc true = .ok c0 ∧ numberOfCollections capacity mc = .ok n ∧ Holds n (min (n * capacity) mc) c0 ⟨Map.empty, true⟩ ∧
    ∀ j (ids : List String), ids.Nodup → (∀ id ∈ ids, c0.read id ≠ .ok none ∧ hashId id % n = j) → ids.length ≤ min (n * capacity) mc := by
  obtain ⟨c0, n, h1, h2, h3⟩ := new_holds (V := V) capacity mc true hc hm
  refine ⟨c0, n, h1, h2, h3, fun j ids _ h => ?_⟩
  cases ids with
  | nil => simp
  | cons a l => exact absurd (h3.read hV a) (h a List.mem_cons_self).1

/-- Six objects in a database for two. -/
example : let c := soloBox (groupOf 2 true [])
    let w := (Shared.opened c).moves (schedule 7 0 [["a", "b"], ["c", "d"], ["e", "f"]])
    ∀ id ∈ ["a", "b", "c", "d", "e", "f"], w.disk.read id = .ok (some 7) := by
  intro c w
  decide +kernel

end Verif.Props.Overshoot
