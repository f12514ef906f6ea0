import Verif.Storage.Container
import Verif.Db.Connection
import Verif.Props.Sizing
import Mathlib.Tactic.IntervalCases
import Mathlib.Tactic.NormNum.Prime

/-!
# The repository's own unit tests, run on the model

Not claims: a check that the model does what citrine/tests says the code does.  Each `example` transcribes the assertions of the test it names; the
kernel evaluates the model.  Left out: tests of Python identity, of UUIDs and of `usage` as a decimal fraction (see Props/Float.lean), tests that mock
away the object under test, and those repeated word for word for another class.  Where a test goes through `Container.new` or `resize`, whose number
of collections is found by searching for a prime, that number is checked separately at the end.
-/

namespace Verif.Props.UnitTests
open Verif Verif.Storage

/-- The dict `{key_i: val_i}` of the tests, for the given suffixes. -/
def pairs (key val : String) (suffixes : List String) : List (String × String) := suffixes.map fun s => (key ++ s, val ++ s)

/-- `for key, value in items.items(): collection.insert(key, value)`: the answers and the result. -/
def fillC (c : Collection String) (items : List (String × String)) : List (Outcome (Ret String)) × Collection String :=
  c.run (items.map fun p => .insert p.1 p.2)

/-- The same for a group. -/
def fillG (g : CGroup String) (items : List (String × String)) : List (Outcome (Ret String)) × CGroup String :=
  g.run (items.map fun p => .map (.insert p.1 p.2))

/-- 'key0'..'key4' with 'val0'..'val4'. -/
def five : List (String × String) := pairs "key" "val" ["0", "1", "2", "3", "4"]

/-- 'key5'..'key19'. -/
def tooMany : List (String × String) :=
  pairs "key" "val" ["5", "6", "7", "8", "9", "10", "11", "12", "13", "14", "15", "16", "17", "18", "19"]

/-- A collection with these five. -/
def coll5 (max : Nat) : Collection String := (fillC (Collection.new 0 (some max) true) five).2

/-! ## citrine/tests/storage/test_collection.py -/

/-- CollectionMetaTests.test_status_levels -/
example : ∀ n ∈ Collection.levels, Collection.statusOf n 100 = n := by decide +kernel

/-- test_raises_collection_capacity_error_if_max_exceeded (ten fit, the eleventh does not; the test's keys are random) -/
example : ((fillC (Collection.new 0 (some 10) true) (five ++ tooMany.take 6)).1.map fun r => match r with
    | .ok _ => true
    | .error e => e != .collectionCapacity) = List.replicate 10 true ++ [false] := by decide +kernel

/-- test_iterkeys -/
example : (Collection.new (V := String) 0).iterkeys none none = [] ∧
    (coll5 10).iterkeys none none = five.map Prod.fst ∧
    (coll5 10).iterkeys (some "key1") (some "key3") = ["key1", "key2", "key3"] ∧
    (coll5 10).iterkeys none (some "key2") = ["key0", "key1", "key2"] ∧
    (coll5 10).iterkeys (some "key2") none = ["key2", "key3", "key4"] := by decide +kernel

/-- test_itervalues -/
example : (Collection.new (V := String) 0).itervalues none none = [] ∧
    (coll5 10).itervalues none none = five.map Prod.snd ∧
    (coll5 10).itervalues (some "key1") (some "key3") = ["val1", "val2", "val3"] ∧
    (coll5 10).itervalues none (some "key2") = ["val0", "val1", "val2"] ∧
    (coll5 10).itervalues (some "key2") none = ["val2", "val3", "val4"] := by decide +kernel

/-- test_iteritems -/
example : (Collection.new (V := String) 0).iteritems none none = [] ∧
    (coll5 10).iteritems none none = five ∧
    (coll5 10).iteritems (some "key1") (some "key3") = (five.drop 1).take 3 ∧
    (coll5 10).iteritems none (some "key2") = five.take 3 ∧
    (coll5 10).iteritems (some "key2") none = five.drop 2 := by decide +kernel

/-- test_keys, test_values, test_items -/
example : (coll5 10).keys = five.map Prod.fst ∧ (coll5 10).values = five.map Prod.snd ∧ (coll5 10).items = five ∧
    (Collection.new (V := String) 0).keys = [] := by decide +kernel

/-- test_insert -/
example : (∀ p ∈ five, (coll5 5).get p.1 = some p.2) ∧ ((coll5 5).insert "key5" "val5").1 = .error .collectionCapacity ∧
    ({ coll5 5 with strict := false }.insert "key5" "val5").2.get "key5" = some "val5" := by decide +kernel

/-- test_update -/
example :
    let c := ((Collection.new 0 (some 10) true).update five).2
    let r := c.update tooMany
    let r' := ({ r.2 with strict := false } : Collection String).update tooMany
    (∀ p ∈ five, c.get p.1 = some p.2) ∧ r.1 = .error .collectionCapacity ∧ (∀ p ∈ tooMany, p.1 ∉ r.2.keys) ∧
    r'.1 = .ok () ∧ ∀ p ∈ tooMany, r'.2.get p.1 = some p.2 := by decide +kernel

/-- test_get -/
example : (∀ p ∈ five, (coll5 5).get p.1 = some p.2) ∧ ((coll5 5).get "keyNull").getD "valNull" = "valNull" ∧
    ((coll5 5).get "key0").getD "valNull" = "val0" := by decide +kernel

/-- test_maxkey, test_minKey -/
example : (Collection.new (V := String) 0 (some 5)).maxKey none = .error .valueError ∧ (coll5 5).maxKey none = .ok "key4" ∧
    (coll5 5).maxKey (some "key3") = .ok "key3" ∧
    (Collection.new (V := String) 0 (some 5)).minKey none = .error .valueError ∧ (coll5 5).minKey none = .ok "key0" ∧
    (coll5 5).minKey (some "key2") = .ok "key2" := by decide +kernel

/-- test_pop -/
example :
    let r := (coll5 5).pop "key2" none
    r.1 = .ok "val2" ∧ "val2" ∉ r.2.values ∧ "key2" ∉ r.2.keys ∧ (r.2.pop "nonexistent key" none).1 = .error .keyError ∧
    (r.2.pop "nonexistent key" (some "default")).1 = .ok "default" ∧ (r.2.pop "key0" (some "default")).1 = .ok "val0" := by decide +kernel

/-- test_popitem -/
example : (coll5 5).popitem.1 = .ok ("key0", "val0") ∧ "key0" ∉ (coll5 5).popitem.2.keys ∧ "val0" ∉ (coll5 5).popitem.2.values := by decide +kernel

/-- test_setdefault -/
example :
    let r := (coll5 6).setdefault "key5" "val5"
    let r' := r.2.setdefault "key0" "val0-1"
    r.1 = .ok "val5" ∧ r.2.get "key5" = some "val5" ∧ r'.1 = .ok "val0" ∧ r'.2.get "key0" = some "val0" := by decide +kernel

/-- clear, has_key (named without `test`, so not run in the repository; `has_key('meta')` there is a left-over of an earlier version) -/
example : (coll5 5).clear.size = 0 ∧ (∀ p ∈ five, (coll5 5).hasKey p.1 = true) ∧
    ∀ k ∈ ["key5", "key6", "key7"], (coll5 5).hasKey k = false := by decide +kernel

/-! ## citrine/tests/storage/test_group.py -/

/-- GroupMetaTests.test_max_size, test_max_collection_size -/
example : (⟨[Collection.new 0 (some 10), Collection.new 1 (some 15)]⟩ : CGroup String).maxSize = 25 ∧
    (⟨[Collection.new 0 (some 10), Collection.new 1 (some 15)]⟩ : CGroup String).maxCollectionSize = .ok 15 := by decide +kernel

/-- The group of test_status with `a` and `b` objects in its collections of 20. -/
def statusGroup (a b : Nat) : Outcome Nat := (⟨[
  { uuid := 0, tree := List.replicate a ("", ""), maxSize := 20, strict := true },
  { uuid := 1, tree := List.replicate b ("", ""), maxSize := 20, strict := true }]⟩ : CGroup String).status

/-- test_status -/
example : statusGroup 10 10 = .ok 0 ∧ statusGroup 13 10 = .ok 60 ∧ statusGroup 13 15 = .ok 70 ∧ statusGroup 17 15 = .ok 80 ∧
    statusGroup 17 19 = .ok 90 := by decide +kernel

/-- The sizes of the collections of a new group. -/
def sizes (o : Outcome (CGroup String)) : Outcome (List Nat × Nat) := o.map fun g => (g.collections.map Collection.maxSize, g.maxSize)

/-- GroupConstructionTests.test_new_defaults, test_max_collection_size, test_size_and_max_collection_size_generation -/
example : sizes (CGroup.new 0 (some 1) 5000) = .ok ([5000], 5000) ∧ sizes (CGroup.new 0 (some 3) 5000) = .ok ([5000, 5000, 5000], 15000) ∧
    sizes (CGroup.new 0 (some 0) 5000) = .error .valueError ∧ sizes (CGroup.new 0 (some 3) 1) = .ok ([1, 1, 1], 3) ∧
    sizes (CGroup.new 0 (some 3) 3) = .ok ([3, 3, 3], 9) ∧ sizes (CGroup.new 0 (some 3) 0) = .error .valueError ∧
    sizes (CGroup.new 0 (some 1) 1) = .ok ([1], 1) ∧ sizes (CGroup.new 0 (some 1) 3) = .ok ([3], 3) := by decide +kernel

/-- Three collections without objects. -/
def three (max : Option Nat) (strict : Bool) : CGroup String :=
  ⟨[Collection.new 0 max strict, Collection.new 1 max strict, Collection.new 2 max strict]⟩

/-- keys 'key0.0'..'key2.2' with values 'value0.0'..'value2.2' -/
def nine : List (String × String) := pairs "key" "value" ["0.0", "0.1", "0.2", "1.0", "1.1", "1.2", "2.0", "2.1", "2.2"]

/-- The group of the tests with these nine. -/
def g9 : CGroup String := (fillG (three none false) nine).2

/-- 'key{i}.0'..'key{i}.4' -/
def row (i : String) : List (String × String) := pairs ("key" ++ i) ("value" ++ i) [".0", ".1", ".2", ".3", ".4"]

/-- The group of GroupStorageTests.test_iterkeys and the following: each collection is filled directly, so ids are not where their hash says. -/
def g15 : CGroup String := ⟨[(fillC (Collection.new 0 none false) (row "0")).2, (fillC (Collection.new 1 none false) (row "1")).2,
  (fillC (Collection.new 2 none false) (row "2")).2]⟩

/-- All fifteen. -/
def fifteen : List (String × String) := row "0" ++ row "1" ++ row "2"

/-- GroupStorageTests.test_iterkeys -/
example : (three none false).iterkeys none none = [] ∧ g15.iterkeys none none = fifteen.map Prod.fst ∧
    g15.iterkeys (some "key0.1") (some "key1.2") = ((fifteen.map Prod.fst).take 8).drop 1 ∧
    g15.iterkeys none (some "key1.0") = (fifteen.map Prod.fst).take 6 ∧
    g15.iterkeys (some "key1.2") none = (fifteen.map Prod.fst).drop 7 := by decide +kernel

/-- test_itervalues -/
example : (three none false).itervalues none none = [] ∧ g15.itervalues none none = fifteen.map Prod.snd ∧
    g15.itervalues (some "key0.1") (some "key1.2") = ((fifteen.map Prod.snd).take 8).drop 1 ∧
    g15.itervalues none (some "key1.1") = (fifteen.map Prod.snd).take 7 ∧
    g15.itervalues (some "key1.2") none = (fifteen.map Prod.snd).drop 7 := by decide +kernel

/-- test_iteritems -/
example : g15.iteritems none none = .ok fifteen ∧ g15.iteritems (some "key0.1") (some "key0.3") = .ok ((fifteen.take 4).drop 1) ∧
    g15.iteritems none (some "key0.2") = .ok (fifteen.take 3) ∧ g15.iteritems (some "key0.2") none = .ok (fifteen.drop 2) := by decide +kernel

/-- test_keys, test_values, test_items -/
example : g15.keys = fifteen.map Prod.fst ∧ g15.values = fifteen.map Prod.snd ∧ g15.items = fifteen := by decide +kernel

/-- test_insert -/
example :
    let r := fillG (three (some 3) true) nine
    let r' := (r.2.setStrict (some false)).2.insert "key3.0" "val3.0"
    (∀ p ∈ nine, p ∈ r.2.items) ∧ (∀ p ∈ r.2.items, p ∈ nine) ∧ (r.2.insert "key5" "val5").1 = .error .groupCapacity ∧
    (r'.2.collections[0]?.bind fun c => c.get "key3.0") = some "val3.0" := by decide +kernel

/-- test_update -/
example :
    let g := ((three (some 3) true).update nine).2
    let r := g.update tooMany
    let r' := (r.2.setStrict (some false)).2.update tooMany
    (∀ p ∈ nine, p ∈ g.items) ∧ (∀ p ∈ g.items, p ∈ nine) ∧ r.1 = .error .groupCapacity ∧ (∀ p ∈ tooMany, p.1 ∉ r.2.keys) ∧
    ∀ p ∈ tooMany, p.1 ∈ r'.2.keys := by decide +kernel

/-- test_get -/
example : (∀ p ∈ nine, g9.get p.1 = .ok (some p.2)) ∧ g9.get "keyNull" = .ok none := by decide +kernel

/-- test_maxkey, test_minKey -/
example : (three none false).maxKey none = .error .valueError ∧ g9.maxKey none = .ok "key2.2" ∧ g9.maxKey (some "key1.0") = .ok "key1.0" ∧
    (three none false).minKey none = .error .valueError ∧ g9.minKey none = .ok "key0.0" ∧ g9.minKey (some "key1.0") = .ok "key1.0" := by decide +kernel

/-- test_pop, test_popitem -/
example : (g9.pop "key0.2" none).1 = .ok "value0.2" ∧ "value0.2" ∉ (g9.pop "key0.2" none).2.values ∧ "key0.2" ∉ (g9.pop "key0.2" none).2.keys ∧
    ((g9.pop "key0.2" none).2.pop "nonexistent key" none).1 = .error .keyError ∧
    ((g9.pop "key0.2" none).2.pop "nonexistent key" (some "default")).1 = .ok "default" ∧
    ((g9.pop "key0.2" none).2.pop "key0.0" (some "default")).1 = .ok "value0.0" ∧
    g9.popitem.1 = .ok ("key0.0", "value0.0") ∧ "key0.0" ∉ g9.popitem.2.keys ∧ "value0.0" ∉ g9.popitem.2.values := by decide +kernel

/-- test_setdefault, test_clear, test_has_key -/
example : (g9.setdefault "key5" "val5").1 = .ok "val5" ∧ (g9.setdefault "key5" "val5").2.get "key5" = .ok (some "val5") ∧
    ((g9.setdefault "key5" "val5").2.setdefault "key0.0" "val0-1").1 = .ok "value0.0" ∧
    ((g9.setdefault "key5" "val5").2.setdefault "key0.0" "val0-1").2.get "key0.0" = .ok (some "value0.0") ∧
    g9.keys.length = 9 ∧ g9.clear.keys.length = 0 ∧ (∀ p ∈ nine, g9.hasKey p.1 = .ok true) ∧
    ∀ k ∈ ["key5", "key6", "key7"], g9.hasKey k = .ok false := by decide +kernel

/-- GroupDivisionTests.test_multiple_collections: which collection an id is in -/
example : ((fillG (three none false) (pairs "" "value" ["0", "1", "2", "3", "4", "5"])).2.collections.map Collection.items) =
    [[("0", "value0"), ("3", "value3")], [("1", "value1"), ("4", "value4")], [("2", "value2"), ("5", "value5")]] := by decide +kernel

/-! ## citrine/tests/storage/test_container.py -/

/-- `Group.new(n)` with the given objects. -/
def grp (n : Nat) (items : List (String × String)) : CGroup String :=
  (fillG ⟨(List.range n).map fun i => Collection.new i (some 5000) false⟩ items).2

example : CGroup.new 0 (some 3) 5000 = .ok (grp 3 []) := by decide +kernel

/-- `Container(primary, groups)` for groups made as described. -/
def cont (gs : List (CGroup String)) : Container String :=
  { heap := fun a => gs.getD a ⟨[]⟩, next := gs.length, groups := List.range gs.length, primary := 0 }

/-- What an id is in each of the groups. -/
def copies (c : Container String) (id : String) : List (Outcome (Option String)) := c.groups.map fun a => (c.heap a).get id

/-- ContainerReadWriteTests.test_write -/
example :
    let c := ((cont [grp 23 []]).write "id1" "value1").2
    let d := ((cont [grp 1 [], grp 1 [("id3", "value3")]]).write "id3" "value3").2
    copies c "id1" = [.ok (some "value1")] ∧ copies (c.write "id1" "value1-0").2 "id1" = [.ok (some "value1-0")] ∧
    copies (d.write "id3" "value3-0").2 "id3" = [.ok (some "value3-0"), .ok (some "value3")] := by decide +kernel

/-- test_read (`none`: the default is returned) -/
example : (cont [grp 23 [("id0-0", "value0-0")]]).read "id0-0" = .ok (some "value0-0") ∧ (cont [grp 23 []]).read "id1-0" = .ok none ∧
    (cont [grp 1 [("i", "value3-0")], grp 1 [("i", "value3-1")], grp 2 [("i", "value3-2")]]).read "i" = .ok (some "value3-0") ∧
    (cont [grp 1 [], grp 1 [("i", "value4-1")], grp 2 [("i", "value4-2")]]).read "i" = .ok (some "value4-1") ∧
    (cont [grp 1 [], grp 1 [], grp 2 []]).read "i" = .ok none := by decide +kernel

/-- test_delete -/
example : copies ((cont [grp 23 [("i", "v")]]).delete "i").2 "i" = [.ok none] ∧ copies ((cont [grp 23 []]).delete "i").2 "i" = [.ok none] ∧
    copies ((cont [grp 1 [("i", "v")], grp 1 [("i", "w")], grp 2 [("i", "x")]]).delete "i").2 "i" = [.ok none, .ok none, .ok none] ∧
    ((cont [grp 1 [], grp 1 [], grp 2 []]).delete "i").1 = .ok [] := by decide +kernel

/-- test_has -/
example : (cont [grp 23 [("i", "v")]]).has "i" = .ok 1 ∧ (cont [grp 23 []]).has "i" = .ok 0 ∧
    (cont [grp 1 [("i", "v")], grp 1 [("i", "w")], grp 2 [("i", "x")]]).has "i" = .ok 3 ∧
    (cont [grp 1 [], grp 1 [], grp 2 []]).has "i" = .ok 0 := by decide +kernel


/-- The groups of test_multiple_secondary_condense_*_with_overlap, with fewer ids in each (the kernel recomputes each group for every look at it). -/
def overlap : Container String := cont [
  grp 3 (["0", "2"].map fun s => (s, "val" ++ s ++ ".0")),
  grp 7 (["2", "4", "5"].map fun s => (s, "val" ++ s ++ ".1")),
  grp 11 (["5", "7"].map fun s => (s, "val" ++ s ++ ".2"))]

/-- What the primary group must hold afterwards. -/
def merged : List (String × String) := [("0", "val0.0"), ("2", "val2.0"), ("4", "val4.1"), ("5", "val5.1"), ("7", "val7.2")]

/-- ContainerInternalCondenseTests.test_multiple_secondary_condense_with_transfer_with_overlap -/
example :
    let r := overlap.condense true
    (∀ p ∈ merged, (r.2.heap r.2.primary).get p.1 = .ok (some p.2)) ∧ (r.2.heap 1).size = 0 ∧ (r.2.heap 2).size = 0 ∧
    r.2.groups = [0] ∧ r.1 = .ok [1, 2] := by decide +kernel

/-- test_multiple_secondary_condense_without_transfer_with_overlap -/
example :
    let r := overlap.condense false
    (∀ p ∈ merged, (r.2.heap r.2.primary).get p.1 = .ok (some p.2)) ∧ (r.2.heap 1).size = 3 ∧ (r.2.heap 2).size = 2 ∧
    r.2.groups = [0, 1, 2] ∧ r.1 = .ok [] := by decide +kernel

/-! ### sizes found by search -/

theorem noc_eq (capacity m n : Nat) (hm : 1 ≤ m) (h1 : n.Prime ∨ n ≤ 1) (h2 : capacity ≤ n * m)
    (h3 : ∀ n' < n, (n'.Prime ∨ n' ≤ 1) → n' * m < capacity) : numberOfCollections capacity m = .ok n := by
  obtain ⟨k, hk, k1, k2, k3⟩ := numberOfCollections_correct capacity m hm
  have h4 := k3 n h1 h2
  have : k = n := by
    by_contra hne
    have := h3 k (by omega) k1
    omega
  rw [hk, this]

/-- ContainerConstructorTests.test_new_default_constructors, test_new_custom_capacity, test_new_custom_collection_max_size,
test_new_custom_capacity_and_collection_max_size: numbers of collections -/
theorem collections_of_tests :
    numberOfCollections 100000 5000 = .ok 23 ∧ numberOfCollections 5000 5000 = .ok 1 ∧ numberOfCollections 50000 5000 = .ok 11 ∧
    numberOfCollections 150000 5000 = .ok 31 ∧ numberOfCollections 150 5000 = .ok 1 ∧ numberOfCollections 100000 100000 = .ok 1 ∧
    numberOfCollections 100000 10000 = .ok 11 ∧ numberOfCollections 100000 3300 = .ok 31 ∧ numberOfCollections 9000 850 = .ok 11 ∧
    numberOfCollections 99000 3300 = .ok 31 ∧ numberOfCollections 25000 5000 = .ok 5 := by
  refine ⟨?_, ?_, ?_, ?_, ?_, ?_, ?_, ?_, ?_, ?_, ?_⟩
  all_goals
    refine noc_eq _ _ _ (by norm_num) (by norm_num) (by norm_num) fun n' h hp => ?_
    interval_cases n' <;> first | omega | norm_num at hp

/-- The group made for a capacity of 25000. -/
theorem group25000 (s : Bool) : Container.makeGroup (V := String) 25000 5000 s = .ok (grp 5 []) := by
  unfold Container.makeGroup
  rw [collections_of_tests.2.2.2.2.2.2.2.2.2.2]
  show CGroup.new 0 (some 5) 5000 s = _
  cases s <;> decide +kernel

/-- The default container: 23 collections, capacity 115000 (test_new_default_constructors; ContainerDbConstructorTests.test_create_default_capacity). -/
example : Container.makeGroup (V := String) 100000 5000 false = .ok (grp 23 []) ∧ (grp 23 []).maxSize = 115000 := by
  refine ⟨?_, by decide +kernel⟩
  unfold Container.makeGroup
  rw [collections_of_tests.1]
  show CGroup.new 0 (some 23) 5000 false = _
  decide +kernel

/-- The groups of test_multiple_group_resize_*_with_overlap, with fewer ids. -/
def overlap3 : Container String := cont [
  grp 3 (["0", "1"].map fun s => (s, "val" ++ s ++ ".0")),
  grp 3 (["1", "2"].map fun s => (s, "val" ++ s ++ ".1")),
  grp 3 (["2", "3"].map fun s => (s, "val" ++ s ++ ".2"))]

/-- ContainerInternalResizeTests.test_multiple_group_resize_*_with_overlap: result, groups (the new one is 3), capacity, number of collections, sizes of
all groups. -/
def resized (cd t : Bool) : Outcome (List Nat) × List Nat × Nat × Nat × List Nat :=
  let r := overlap3.resize 25000 5000 cd t
  (r.1, r.2.groups, r.2.capacity, (r.2.heap r.2.primary).collections.length, [3, 0, 1, 2].map fun a => (r.2.heap a).size)

/-- test_multiple_group_resize_{without_transfer_or_condense, with_transfer_without_condense, without_transfer_with_condense,
with_transfer_with_condense}_with_overlap -/
example : resized false false = (.ok [], [3, 0, 1, 2], 25000, 5, [2, 2, 2, 2]) ∧ resized false true = (.ok [0], [3, 1, 2], 25000, 5, [2, 0, 2, 2]) ∧
    resized true false = (.ok [], [3, 0, 1, 2], 25000, 5, [4, 2, 2, 2]) ∧
    resized true true = (.ok [0, 1, 2], [3], 25000, 5, [4, 0, 0, 0]) := by
  unfold resized Container.resize
  rw [group25000]
  refine ⟨by decide +kernel, by decide +kernel, by decide +kernel, by decide +kernel⟩

end Verif.Props.UnitTests
