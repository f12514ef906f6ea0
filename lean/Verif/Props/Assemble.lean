import Verif.Props.Container

/-!
# Building a container from existing groups (C111)
-/
namespace Verif.Props
open Verif.Storage Verif.Spec
variable {V : Type}

/-- The object a list of groups gives for an id: that of the first group whose `get` has one. -/
def firstHit (heap : Nat → CGroup V) (groups : List Nat) (id : String) : Option V :=
  groups.findSome? fun a => match (heap a).get id with
    | .ok r => r
    | .error _ => none

theorem findSome_congr_mem {α β : Type} {f g : α → Option β} {l : List α} (h : ∀ a ∈ l, f a = g a) :
    l.findSome? f = l.findSome? g := by
  induction l with
  | nil => rfl
  | cons a l ih =>
    rw [List.findSome?_cons, List.findSome?_cons, h a (by simp), ih fun b hb => h b (by simp [hb])]

/-- **C111 (refusal).** A `strict` argument that is not a boolean raises TypeError. -/
theorem container_assemble_bad_strict (heap : Nat → CGroup V) (next primary : Nat) (groups : List Nat) :
    Container.init heap next primary groups none = .error .typeError := rfl

/-- **C111.** `Container(primary, groups, strict)` over distinct groups with any histories: it succeeds; the primary group is the
one named; the groups are the given ones in the given order, preceded by the primary group when that one is not among them; every
group answers every lookup as before and has the same size; only the primary group takes the `strict` argument; and the container
reads as the groups did, the first one having the id winning (objects being truthy, see
`container_read_counterexample`). -/
theorem container_assemble [Truthy V] (heap : Nat → CGroup V) (next primary : Nat) (groups : List Nat) (s : Bool)
    (hg : ∀ a ∈ primary :: groups, GroupReach (heap a) ∧ a < next) (hn : groups.Nodup) :
    ∃ c : Container V, Container.init heap next primary groups (some s) = .ok c ∧ ContReach c ∧
      c.primary = primary ∧
      c.groups = (if primary ∈ groups then groups else primary :: groups) ∧
      c.strict = s ∧
      (∀ a, a ≠ primary → c.heap a = heap a) ∧
      (∀ a ∈ primary :: groups, ∀ id, (c.heap a).get id = (heap a).get id) ∧
      (∀ a ∈ primary :: groups, (c.heap a).size = (heap a).size ∧ (c.heap a).maxSize = (heap a).maxSize) ∧
      (AllTruthy V → ∀ id, c.read id = .ok (firstHit heap c.groups id)) := by
  obtain ⟨c, hc⟩ : ∃ c : Container V, Container.init heap next primary groups (some s) = .ok c := ⟨_, rfl⟩
  have hr : ContReach c := .init heap next primary groups (some s) c hg hn hc
  have hc' := Except.ok.inj hc
  obtain ⟨-, g2, g3, g4, g5, -⟩ := group_setStrict (heap primary) (hg primary (by simp)).1 s
  have e1 : c.primary = primary := by rw [← hc']; rfl
  have e2 : c.groups = (if primary ∈ groups then groups else primary :: groups) := by rw [← hc']; rfl
  have e3 : c.heap primary = ((heap primary).setStrict (some s)).2 := by
    rw [← hc']; simp [Container.put]
  have e4 : ∀ a, a ≠ primary → c.heap a = heap a := by
    intro a ha; rw [← hc']; simp [Container.put, Function.update_of_ne ha]
  have hmem : ∀ a ∈ c.groups, a ∈ primary :: groups := by
    intro a ha; rw [e2] at ha
    split_ifs at ha with h
    · exact List.mem_cons_of_mem _ ha
    · exact ha
  have hget : ∀ a ∈ primary :: groups, ∀ id, (c.heap a).get id = (heap a).get id := by
    intro a ha id
    by_cases hp : a = primary
    · subst hp
      have hrp := (hg a (by simp)).1
      have hne : (c.heap a).collections ≠ [] := by
        rw [e3]; intro h0
        have := congrArg List.length g5
        rw [h0] at this
        exact hrp.inv.ne (List.length_eq_zero_iff.1 (by simpa using this.symm))
      rw [CGroup.get_view hne, (group_get_has (heap a) hrp id).1, e3, g4]
    · rw [e4 a hp]
  refine ⟨c, hc, hr, e1, e2, ?_, e4, hget, ?_, ?_⟩
  · show (c.heap c.primary).strict = s
    rw [e1, e3, g2]
  · intro a _
    by_cases hp : a = primary
    · subst hp
      rw [e3]
      constructor
      · have := congrArg (fun l => (l.map List.length).sum) g5
        simp only [List.map_map] at this
        exact this
      · unfold CGroup.maxSize CGroup.setStrict
        simp only [List.map_map]
        rfl
    · rw [e4 a hp]; exact ⟨rfl, rfl⟩
  · intro hV id
    rw [(container_read_partial hV c hr id).1]
    unfold Container.first firstHit
    refine congrArg _ (findSome_congr_mem ?_)
    intro a ha
    have h1 := hget a (hmem a ha) id
    show (c.heap a).view id = _
    unfold CGroup.view
    rw [h1]
    rfl

/-- **C111 (default).** Left out, `strict` is off. -/
theorem container_assemble_default (heap : Nat → CGroup V) (next primary : Nat) (groups : List Nat) (hg : GroupReach (heap primary)) :
    ∃ c : Container V, Container.init heap next primary groups = .ok c ∧ c.strict = false := by
  refine ⟨_, rfl, ?_⟩
  have := (group_setStrict (heap primary) hg false).2.1
  simpa [Container.strict, Container.put] using this

/-- The hypotheses are met by two groups with objects, the second one primary. -/
example : (∀ a ∈ [1, 0, 1], GroupReach (twoGroupHeap a) ∧ a < 2) ∧ [0, 1].Nodup ∧
    firstHit twoGroupHeap [0, 1] "b" = some 2 ∧ firstHit twoGroupHeap [0, 1] "c" = none := by
  refine ⟨fun a ha => ⟨twoGroupHeap_reach a, by simp at ha; omega⟩, by decide, by decide +kernel, by decide +kernel⟩

end Verif.Props
