import Verif.Spec.Store
import Verif.Db.Program

/-!
# Specification: what programs with `with conn:` blocks should do

On plain maps.  Outside of blocks every call is stored at once or refused.  A block works on what is stored; when it ends normally all its
changes are stored together, when an exception leaves it nothing of it remains.  A block inside a block belongs to the outer one.
-/
namespace Verif.Spec
open Verif.Storage Verif.Db
variable {V : Type}

/-- What is stored, what the program sees, and everything that was ever stored by it (latest first): a crash leaves the first of them. -/
structure View (V : Type) where
  disk : Map V
  mem : Map V
  log : List (Map V) := []

/-- What a call makes of the map; `none`: it is refused. -/
def Map.change (m : Map V) : Change V → Option (Map V)
  | .create id obj => if m id = none then some (m.set id obj) else none
  | .update id obj => some (m.set id obj)
  | .delete id => some (m.remove id)

/-- A call inside a block. -/
def View.pend (s : View V) (ch : Change V) : Bool × View V :=
  match s.mem.change ch with
  | none => (true, s)
  | some m => (false, { s with mem := m })

/-- A call outside of blocks. -/
def View.store (s : View V) (ch : Change V) (ok : Bool) : Bool × View V :=
  match s.disk.change ch with
  | none => (true, { s with mem := s.disk })
  | some m => if ok then (false, ⟨m, m, m :: s.log⟩) else (true, { s with mem := s.disk })

/-- The end of a block. -/
def View.finish (s : View V) (raised ok : Bool) : Bool × View V :=
  if raised then (true, { s with mem := s.disk })
  else if ok then (false, ⟨s.mem, s.mem, s.mem :: s.log⟩)
  else (true, { s with mem := s.disk })

/-- Running a program, inside of a block or not: does an exception leave it, and what is stored and seen then. -/
def ideal : Prog V → (inside : Bool) → View V → Bool × View V
  | .pass, _, s => (false, s)
  | .call ch ok, inside, s => if inside then s.pend ch else s.store ch ok
  | .read id next, inside, s => ideal (next (s.mem id)) inside s
  | .raise, _, s => (true, s)
  | .seq p q, inside, s => if (ideal p inside s).1 then (true, (ideal p inside s).2) else ideal q inside (ideal p inside s).2
  | .attempt p q, inside, s => if (ideal p inside s).1 then ideal q inside (ideal p inside s).2 else (false, (ideal p inside s).2)
  | .block p ok, inside, s =>
    if inside then ideal p true s
    else (ideal p true { s with mem := s.disk }).2.finish (ideal p true { s with mem := s.disk }).1 ok

/-- No block inside a block, and the storage refuses no commit of a call outside of blocks (those of blocks may be refused). -/
def Flat : Prog V → (inside : Bool) → Prop
  | .pass, _ => True
  | .call _ ok, inside => inside = true ∨ ok = true
  | .read _ next, inside => ∀ v, Flat (next v) inside
  | .raise, _ => True
  | .seq p q, inside => Flat p inside ∧ Flat q inside
  | .attempt p q, inside => Flat p inside ∧ Flat q inside
  | .block p _, inside => inside = false ∧ Flat p true

/-- No block at all. -/
def NoBlock : Prog V → Prop
  | .pass => True
  | .call _ _ => True
  | .read _ next => ∀ v, NoBlock (next v)
  | .raise => True
  | .seq p q => NoBlock p ∧ NoBlock q
  | .attempt p q => NoBlock p ∧ NoBlock q
  | .block _ _ => False

end Verif.Spec
