import Verif.Storage.Container

/-!
# The methods of Container that only have a docstring

citrine/storage/container.py:390-410: `__add__`, `__contains__` and `__iter__` return None.
-/
namespace Verif.Storage.Container
variable {V : Type}

/-- `id in container` (citrine/storage/container.py:399-404): Python takes the truth value of the result of `__contains__`, which is None. -/
def contains (_c : Container V) (_id : String) : Outcome Bool := .ok (truthy PyVal.none)

/-- `for x in container` (citrine/storage/container.py:406-410): `iter()` raises TypeError since None is not an iterator. -/
def iter (_c : Container V) : Outcome (List (String × V)) := .error .typeError

/-- `a + b` (citrine/storage/container.py:390-397): None, no container. -/
def add (_c _other : Container V) : Outcome (Option (Container V)) := .ok none

end Verif.Storage.Container
