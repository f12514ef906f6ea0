import Verif.Py
import Mathlib.Data.List.Basic

/-!
# Python dictionaries

A `dict` (or `PersistentMapping`) is a list of key/value pairs in insertion order.
-/
namespace Verif

/-- A Python dict: pairs in insertion order. -/
abbrev PyDict (K V : Type) := List (K × V)

namespace PyDict
variable {K V W : Type} [DecidableEq K]

/-- `d.get(k)` -/
def _root_.List.dget : PyDict K V → K → Option V
  | [], _ => none
  | (a, v) :: d, k => if a = k then some v else dget d k

/-- `d[k] = v`: keeps the position of an existing key, else appends. -/
def _root_.List.dset : PyDict K V → K → V → PyDict K V
  | [], k, v => [(k, v)]
  | (a, w) :: d, k, v => if a = k then (a, v) :: d else (a, w) :: dset d k v

/-- `del d[k]` / `d.pop(k)` (the remaining dict) -/
def _root_.List.ddel : PyDict K V → K → PyDict K V
  | [], _ => []
  | (a, w) :: d, k => if a = k then d else (a, w) :: ddel d k

/-- `d.dkeys()` -/
def _root_.List.dkeys (d : PyDict K V) : List K := d.map Prod.fst

/-- `d | e`, `{**d, **e}` -/
def _root_.List.dmerge (d e : PyDict K V) : PyDict K V := e.foldl (fun d p => d.dset p.1 p.2) d

/-- A dict has no key twice. -/
def _root_.List.WF (d : PyDict K V) : Prop := d.dkeys.Nodup

omit [DecidableEq K] in
theorem wf_nil : List.WF ([] : PyDict K V) := List.nodup_nil

theorem dget_eq_none {d : PyDict K V} {k : K} : d.dget k = none ↔ k ∉ d.dkeys := by
  induction d with
  | nil => simp [List.dget, List.dkeys]
  | cons p d ih =>
    obtain ⟨a, v⟩ := p
    simp only [List.dget, List.dkeys, List.map_cons, List.mem_cons, not_or]
    split_ifs with h
    · subst h; simp
    · rw [ih]; exact ⟨fun hh => ⟨fun e => h e.symm, hh⟩, fun hh => hh.2⟩

theorem dget_ne_none {d : PyDict K V} {k : K} : d.dget k ≠ none ↔ k ∈ d.dkeys := by
  rw [Ne, dget_eq_none, not_not]

theorem dget_mem {d : PyDict K V} {k : K} {v : V} (h : d.dget k = some v) : (k, v) ∈ d := by
  induction d with
  | nil => simp [List.dget] at h
  | cons p d ih =>
    obtain ⟨a, w⟩ := p
    simp only [List.dget] at h
    split_ifs at h with hk
    · subst hk; injection h with h; subst h; exact List.mem_cons_self
    · exact List.mem_cons_of_mem _ (ih h)

theorem dget_of_mem {d : PyDict K V} (hd : d.WF) {k : K} {v : V} (h : (k, v) ∈ d) :
    d.dget k = some v := by
  induction d with
  | nil => simp at h
  | cons p d ih =>
    obtain ⟨a, w⟩ := p
    simp only [List.WF, List.dkeys, List.map_cons, List.nodup_cons] at hd
    simp only [List.dget]
    rcases List.mem_cons.1 h with h | h
    · injection h with h1 h2; subst h1 h2; simp
    · have : a ≠ k := by
        rintro rfl
        exact hd.1 (List.mem_map.2 ⟨_, h, rfl⟩)
      rw [if_neg this]
      exact ih hd.2 h

theorem dget_dset (d : PyDict K V) (k : K) (v : V) (x : K) :
    (d.dset k v).dget x = if x = k then some v else d.dget x := by
  induction d with
  | nil =>
    simp only [List.dset, List.dget]
    by_cases h : k = x
    · subst h; simp
    · rw [if_neg h, if_neg fun e => h e.symm]
  | cons p d ih =>
    obtain ⟨a, w⟩ := p
    simp only [List.dset]
    by_cases hk : a = k
    · subst hk
      simp only [if_true, List.dget]
      by_cases h : a = x
      · subst h; simp
      · rw [if_neg h, if_neg fun e => h e.symm, if_neg h]
    · rw [if_neg hk]
      simp only [List.dget, ih]
      by_cases h : a = x
      · subst h; rw [if_pos rfl, if_neg hk, if_pos rfl]
      · rw [if_neg h, if_neg h]

theorem dkeys_dset (d : PyDict K V) (k : K) (v : V) :
    (d.dset k v).dkeys = if k ∈ d.dkeys then d.dkeys else d.dkeys ++ [k] := by
  induction d with
  | nil => rfl
  | cons p d ih =>
    obtain ⟨a, w⟩ := p
    simp only [List.dset]
    by_cases hk : a = k
    · subst hk; simp [List.dkeys]
    · rw [if_neg hk]
      have h1 : List.dkeys ((a, w) :: d.dset k v) = a :: (d.dset k v).dkeys := rfl
      have h2 : List.dkeys ((a, w) :: d) = a :: d.dkeys := rfl
      rw [h1, ih, h2]
      have : k ≠ a := fun e => hk e.symm
      by_cases hm : k ∈ d.dkeys
      · simp [hm]
      · simp [hm, this]

theorem wf_dset {d : PyDict K V} (hd : d.WF) (k : K) (v : V) : (d.dset k v).WF := by
  unfold List.WF
  rw [dkeys_dset]
  split_ifs with h
  · exact hd
  · rw [List.nodup_append]
    refine ⟨hd, by simp, ?_⟩
    intro a ha b hb
    simp at hb; subst hb
    rintro rfl; exact h ha

theorem dget_ddel {d : PyDict K V} (hd : d.WF) (k x : K) :
    (d.ddel k).dget x = if x = k then none else d.dget x := by
  induction d with
  | nil => simp [List.ddel, List.dget]
  | cons p d ih =>
    obtain ⟨a, w⟩ := p
    simp only [List.WF, List.dkeys, List.map_cons, List.nodup_cons] at hd
    simp only [List.ddel]
    by_cases hk : a = k
    · subst hk
      simp only [if_true, List.dget]
      split_ifs with h1 h2
      · subst h1; rw [dget_eq_none]; exact hd.1
      · exact absurd h2.symm h1
      · rfl
    · rw [if_neg hk]
      simp only [List.dget, ih hd.2]
      split_ifs with h1 h2 <;> simp_all

theorem dkeys_ddel {d : PyDict K V} (hd : d.WF) (k : K) : (d.ddel k).dkeys = d.dkeys.erase k := by
  induction d with
  | nil => rfl
  | cons p d ih =>
    obtain ⟨a, w⟩ := p
    simp only [List.WF, List.dkeys, List.map_cons, List.nodup_cons] at hd
    simp only [List.ddel]
    by_cases hk : a = k
    · subst hk; simp [List.dkeys]
    · rw [if_neg hk]
      have h1 : List.dkeys ((a, w) :: d.ddel k) = a :: (d.ddel k).dkeys := rfl
      have h2 : List.dkeys ((a, w) :: d) = a :: d.dkeys := rfl
      rw [h1, ih hd.2, h2, List.erase_cons_tail]
      simpa using hk

theorem wf_ddel {d : PyDict K V} (hd : d.WF) (k : K) : (d.ddel k).WF := by
  unfold List.WF
  rw [dkeys_ddel hd]
  exact List.Nodup.erase _ hd

theorem dget_dmerge (d e : PyDict K V) (he : e.WF) (x : K) :
    (d.dmerge e).dget x = match e.dget x with | some v => some v | none => d.dget x := by
  induction e generalizing d with
  | nil => rfl
  | cons p e ih =>
    obtain ⟨a, v⟩ := p
    simp only [List.WF, List.dkeys, List.map_cons, List.nodup_cons] at he
    show ((d.dset a v).dmerge e).dget x = _
    rw [ih _ he.2, dget_dset]
    simp only [List.dget]
    by_cases hx : a = x
    · subst hx
      have : e.dget a = none := dget_eq_none.2 he.1
      simp [this]
    · have : x ≠ a := fun h => hx h.symm
      rw [if_neg hx, if_neg this]

theorem wf_dmerge {d : PyDict K V} (hd : d.WF) (e : PyDict K V) : (d.dmerge e).WF := by
  unfold List.dmerge
  induction e generalizing d with
  | nil => exact hd
  | cons p e ih => exact ih (wf_dset hd p.1 p.2)

end PyDict
end Verif
