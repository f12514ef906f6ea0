import Verif.Spec.Parties
import Verif.Props.SharedLimits
import Verif.Props.Client

/-!
# Programs sharing a database cannot tell it from a map with limits shared by transactions (C159)
-/
namespace Verif.Props.Parties
open Verif Verif.Storage Verif.Spec Verif.Db Verif.Props Verif.Props.Limited
variable {V : Type}

theorem look_alike [Truthy V] (hV : AllTruthy V) {n room : Nat} (hn : 1 ≤ n) (hr : 1 ≤ room) {c : Conn V} {b : Box V} (h : Holds n room c.tm.work b)
    (q : Look) : (c.ask q.ask).1 = b.look (limits n room) q := by
  cases q with
  | read id => exact congrArg Reply.read (h.read hV id)
  | item sel => exact congrArg Reply.item (Client.item_eq hV h sel)
  | strict => exact congrArg Reply.flag h.strict
  | capacity => exact congrArg (fun k => Reply.number (.ok k)) (Client.capacity_eq h)
  | used => exact congrArg (fun k => Reply.number (.ok k)) (Client.used_eq h)
  | usage => exact congrArg Reply.ratio (Client.usage_eq hn hr h)
  | status => exact congrArg Reply.number (Client.status_eq hr h)

variable [DecidableEq V]

/-- Every wish is answered alike, and leaves both alike. -/
theorem serve_alike [Truthy V] (hV : AllTruthy V) {c0 : Container V} {n room : Nat} (hn : 1 ≤ n) (hr : 1 ≤ room) {w : Shared V} {s : Boxes V}
    (h : SharedLimits.Same c0 n room w s) (i : Nat) (ok : Bool) (x : Wish V) :
    (w.serve i ok x).1 = (s.serve (limits n room) i ok x).1 ∧
      SharedLimits.Same c0 n room (w.serve i ok x).2 (s.serve (limits n room) i ok x).2 := by
  cases x with
  | begin => exact ⟨rfl, (h.move hV i .begin trivial).2⟩
  | abort => exact ⟨rfl, (h.move hV i .abort trivial).2⟩
  | call op =>
    obtain ⟨h1, h2⟩ := h.move hV i (.run op) trivial
    exact ⟨congrArg Reply.call h1, h2⟩
  | commit =>
    obtain ⟨h1, h2⟩ := h.move hV i (.commit ok) trivial
    refine ⟨congrArg Reply.done ?_, h2⟩
    have h3 : ((w.commit i ok).1.map fun _ => DbRet.unit) = s.answer (limits n room) i (.commit ok) := h1
    unfold Boxes.answer at h3
    simp only at h3
    rcases hc : (w.commit i ok).1 with e | u
    · rw [hc] at h3
      split_ifs at h3 ⊢ with h4 h5 <;> simp_all [Except.map]
    · rw [hc] at h3
      split_ifs at h3 ⊢ with h4 h5 <;> simp_all [Except.map]
  | look q => exact ⟨look_alike hV hn hr (h.work i).holds q, h⟩

/-- **C159.** Any programs that share a database with one group, whatever is in it: each of them gets back, for every schedule, every refusal of commits and
every crash, exactly what the map with limits shared by transactions gives. -/
theorem no_parties_can_tell [Truthy V] (hV : AllTruthy V) {c0 : Container V} {n room : Nat} (hn : 1 ≤ n) (hr : 1 ≤ room) {b : Box V}
    (h0 : Holds n room c0 b) (p : Parties V) (ts : List Turn) :
    gather Shared.serve Shared.crashed p ts (Shared.opened c0) (fun _ => []) =
      gather (Boxes.serve (limits n room)) Boxes.crashed p ts (Boxes.opened b) (fun _ => []) := by
  have all : ∀ (ts : List Turn) (w : Shared V) (s : Boxes V) (got : Nat → List (Reply V)), SharedLimits.Same c0 n room w s →
      gather Shared.serve Shared.crashed p ts w got = gather (Boxes.serve (limits n room)) Boxes.crashed p ts s got := by
    intro ts
    induction ts with
    | nil => intro w s got _; rfl
    | cons t ts ih =>
      intro w s got h
      cases t with
      | go i ok =>
        obtain ⟨h1, h2⟩ := serve_alike hV hn hr h i ok (p i (got i))
        unfold gather
        rw [h1]
        exact ih _ _ _ h2
      | crash => exact ih _ _ _ ⟨h.disk, fun _ => h.disk, fun _ => h.disk, fun _ => rfl⟩
  have ho : SharedLimits.Of c0 n room c0 b := ⟨h0, .rfl⟩
  exact all ts _ _ _ ⟨ho, fun _ => ho, fun _ => ho, fun _ => rfl⟩

/-- **C159, from the start.** Every container made by `Container.new` with a positive capacity and size, strict or not. -/
theorem new_parties_cannot_tell [Truthy V] (hV : AllTruthy V) (capacity mc : Nat) (strict : Bool) (hc : 1 ≤ capacity) (hmc : 1 ≤ mc) :
    ∃ (c0 : Container V) (n : Nat), Container.new capacity mc strict = .ok c0 ∧ numberOfCollections capacity mc = .ok n ∧
      ∀ (p : Parties V) (ts : List Turn), gather Shared.serve Shared.crashed p ts (Shared.opened c0) (fun _ => []) =
        gather (Boxes.serve (limits n (min (n * capacity) mc))) Boxes.crashed p ts (Boxes.opened ⟨Map.empty, strict⟩) (fun _ => []) := by
  obtain ⟨c0, n, h1, h2, h3⟩ := new_holds (V := V) capacity mc strict hc hmc
  have hn : 1 ≤ n := by
    rcases Nat.eq_zero_or_pos n with h | h
    · subst h; exact absurd (List.length_eq_zero_iff.1 h3.group.len) h3.group.inv.ne
    · exact h
  have hr : 1 ≤ min (n * capacity) mc := le_min (Nat.mul_pos hn hc) hmc
  exact ⟨c0, n, h1, h2, fun p ts => no_parties_can_tell hV hn hr h3 p ts⟩

/-! ### A concrete case -/

/-- A program that begins, writes under its own name until it is refused, and commits (again and again). -/
def writer : Parties Nat := fun i got =>
  if got.length % 4 = 0 then .begin
  else if got.length % 4 = 1 then .call (.create (String.ofList (List.replicate (10 * i + got.length) 'x')) i)
  else if got.length % 4 = 2 then .commit
  else .look .strict

/-- Two of them on a strict database for one object: both store one, since they began before the first commit; after the crash both are refused. -/
example : ((gather Shared.serve Shared.crashed writer
      [.go 0 true, .go 1 true, .go 0 true, .go 1 true, .go 0 true, .go 1 true, .crash, .go 0 true, .go 0 true, .go 0 true]
      (Shared.opened (soloBox (groupOf 1 true []))) (fun _ => []) 0).map fun r => match r with
        | .call r => (shape r).1.isSome
        | .flag b => b
        | _ => false) = [false, false, false, true, false, true] := by decide +kernel

end Verif.Props.Parties
