import Verif.Db.Open
import Verif.Props.Database

/-!
# Opening databases from paths, storage objects and None, alone or with others (C41, C116)
-/
namespace Verif.Props
open Verif Verif.Storage Verif.Spec Verif.Db
variable {V : Type}
attribute [local irreducible] Container.new

/-- Is the storage there for the taking: its file not locked, the object not closed, no `databases` dictionary in use? -/
structure _root_.Verif.Db.World.Plain (w : World V) : Prop where
  unlocked : w.locked = false
  opened : w.closed = false
  alone : w.databases = none

theorem superInit_posKey (w : World V) (arg : StorageArg) (name : String)
    (h : (w.superInit arg name).1 = .error .posKey) : arg ≠ .memory → w.disk = none := by
  rcases w with ⟨d, l, c, ns, ws⟩
  rcases d with _ | ⟨_ | c0, o⟩
  · exact fun _ => rfl
  all_goals
    intro hm
    exfalso
    revert h
    unfold World.superInit World.openStorage World.register connect Conn.init done
    cases arg <;> cases l <;> cases c <;> rcases ns with _ | ns <;> (try by_cases hn : name ∈ ns) <;> simp_all

theorem superInit_same (w : World V) (arg : StorageArg) (hm : arg ≠ .memory) (name : String) :
    (w.superInit arg name).2.disk = w.disk ∧ (w.superInit arg name).2.writes = w.writes := by
  rcases w with ⟨d, l, c, ns, ws⟩
  unfold World.superInit World.openStorage World.register
  cases arg <;> cases l <;> cases c <;> rcases ns with _ | ns <;> (try by_cases hn : name ∈ ns) <;> simp_all

theorem superInit_bad (w : World V) (arg : StorageArg) (hm : arg ≠ .memory) (name : String) (r : Root V) (hd : w.disk = some r)
    (hr : r.container = none) : (w.superInit arg name).1 ≠ .ok () := by
  rcases w with ⟨d, l, c, ns, ws⟩
  rcases r with ⟨_ | c0, o⟩
  · obtain rfl : d = some _ := hd
    unfold World.superInit World.openStorage World.register connect Conn.init done
    cases arg <;> cases l <;> cases c <;> rcases ns with _ | ns <;> (try by_cases hn : name ∈ ns) <;> simp_all
  · cases hr

/-- **C41, every kind of storage.** Opening a storage that holds a root object, as a FileStorage, another storage object or a path, with
or without a `databases` dictionary, locked, closed or not, writes nothing; and if the root has no container it raises. -/
theorem open_never_discards (w : World V) (arg : StorageArg) (hm : arg ≠ .memory) (name : String) (r : Root V) (hd : w.disk = some r) :
    (w.openDb arg name).2.disk = some r ∧ (w.openDb arg name).2.writes = w.writes ∧
    (r.container = none → ∃ e, (w.openDb arg name).1 = .error e) := by
  unfold World.openDb World.openWith
  have h0 := superInit_same w arg hm name
  have hp := superInit_posKey w arg name
  have hb := superInit_bad w arg hm name r hd
  rcases hs : w.superInit arg name with ⟨e | u, w1⟩
  · rw [hs] at h0 hp
    have he : e ≠ .posKey := by
      rintro rfl
      have := hp rfl hm
      rw [hd] at this; cases this
    have h1 : w1.disk = some r := h0.1.trans hd
    have h2 : w1.writes = w.writes := h0.2
    cases e <;> first | exact absurd rfl he | exact ⟨h1, h2, fun _ => ⟨_, rfl⟩⟩
  · rw [hs] at h0 hb
    have h1 := superInit_same w1 arg hm name
    exact ⟨h1.1.trans (h0.1.trans hd), h1.2.trans h0.2, fun hr => absurd rfl (hb hr)⟩

/-- Non-vacuity: a storage with two stored objects, there for the taking. -/
example : ∃ (w : World Nat) (r : Root Nat) (c : Container Nat), w.Plain ∧ w.disk = some r ∧ r.container = some c ∧ c.first "a" = some 1 :=
  ⟨{ disk := some { container := some (twoGroups 0 false) } }, _, _, ⟨rfl, rfl, rfl⟩, rfl, rfl, by decide +kernel⟩

/-- C116: on a FileStorage object the constructor is the one of C41, C42, C76. -/
theorem open_file_storage (w : World V) (hw : w.Plain) (name : String) :
    (w.openDb .fileStorage name).1 = (Db.openDb w.disk).result ∧
    (w.openDb .fileStorage name).2.writes = w.writes ++ (Db.openDb w.disk).writes ∧
    (w.openDb .fileStorage name).2.disk = w.disk.after (Db.openDb w.disk).writes := by
  rcases w with ⟨d, l, c, ns, ws⟩
  obtain ⟨rfl, rfl, rfl⟩ := hw
  unfold World.openDb Db.openDb
  obtain ⟨c, hc, _⟩ := new_default (V := V) false
  rw [hc]
  rcases d with _ | ⟨_ | _, o⟩ <;>
  simp [World.openWith, World.superInit, World.openStorage, World.register, World.fallback, World.closeUnlessFile, World.write, openDbWith, openNew, plainDb,
    fill, connect, Conn.init, done, Disk.after]

/-- **C116 (partial: which arguments work).** Of a storage that is there for the taking, opening succeeds exactly for: a FileStorage object
that is new or holds a container; a path to a new file; another storage object that holds a container.  It then holds the container it
held before, or, if it was new, an empty default one. -/
theorem open_storage_partial (w : World V) (hw : w.Plain) (arg : StorageArg) (name : String) :
    ((w.openDb arg name).1 = .ok () ↔
      (arg = .fileStorage ∧ (w.disk = none ∨ stored w.disk ≠ none)) ∨ (arg = .path ∧ w.disk = none) ∨
        (arg = .other ∧ stored w.disk ≠ none)) ∧
    ((w.openDb arg name).1 = .ok () →
      (∀ r, w.disk = some r → (w.openDb arg name).2.disk = some r) ∧
      (w.disk = none → ∃ c, (w.openDb arg name).2.disk = some { container := some c } ∧ DefaultContainer c false)) := by
  rcases w with ⟨d, l, c, ns, ws⟩
  obtain ⟨rfl, rfl, rfl⟩ := hw
  unfold World.openDb
  obtain ⟨c, hc, hd⟩ := new_default (V := V) false
  rw [hc]
  cases arg <;> rcases d with _ | ⟨_ | _, o⟩ <;>
  simp [World.openWith, World.superInit, World.openStorage, World.register, World.fallback, World.closeUnlessFile, World.close, World.write, plainDb,
    fill, connect, Conn.init, done, Disk.after, stored, hd]

/-- **C116 (counterexample: paths).** A database that exists can not be opened by its path: the constructor opens the file a second time
while it holds the lock itself. -/
theorem open_path_counterexample (w : World V) (hw : w.Plain) (name : String) (r : Root V) (c : Container V) (hd : w.disk = some r)
    (hr : r.container = some c) : (w.openDb .path name).1 = .error .lockError := by
  rcases w with ⟨d, l, c, ns, ws⟩
  obtain ⟨rfl, rfl, rfl⟩ := hw
  obtain rfl : d = some r := hd
  simp [World.openDb, World.openWith, World.superInit, World.openStorage, World.register, connect, Conn.init, done, hr]

/-- **C116 (counterexample: None).** A database in memory can not be opened: the container is put in one that is thrown away. -/
theorem open_memory_counterexample (w : World V) (hw : w.databases = none) (name : String) : (w.openDb .memory name).1 = .error .posKey := by
  rcases w with ⟨d, l, c, ns, ws⟩
  obtain rfl : ns = none := hw
  unfold World.openDb
  obtain ⟨c, hc, _⟩ := new_default (V := V) false
  rw [hc]
  simp [World.openWith, World.superInit, World.openStorage, World.register, World.fallback, World.closeUnlessFile, World.close, World.write, plainDb,
    fill, connect, done, Disk.after]

/-- **C116 (counterexample: new storage objects).** A new storage object that is no FileStorage is closed before the container could be put
in it; nothing is stored. -/
theorem open_new_object_counterexample (w : World V) (hw : w.Plain) (name : String) (hd : w.disk = none) :
    (w.openDb .other name).1 = .error .storageError ∧ (w.openDb .other name).2.disk = none ∧ (w.openDb .other name).2.closed = true := by
  rcases w with ⟨d, l, c, ns, ws⟩
  obtain ⟨rfl, rfl, rfl⟩ := hw
  obtain rfl : d = none := hd
  simp [World.openDb, World.openWith, World.superInit, World.openStorage, World.register, World.fallback, World.closeUnlessFile, World.close,
    connect, done]

theorem superInit_taken (w : World V) (ns : List String) (hw : w.databases = some ns) (arg : StorageArg) (name : String) (hn : name ∈ ns) :
    ∃ e, (w.superInit arg name).1 = .error e := by
  rcases w with ⟨d, l, c, ns, ws⟩
  obtain rfl := hw
  unfold World.superInit World.openStorage World.register
  cases arg <;> cases l <;> cases c <;> simp_all

theorem superInit_registers (w : World V) (ns : List String) (hw : w.databases = some ns) (arg : StorageArg) (name : String)
    (h1 : (w.superInit arg name).1 = .error .posKey ∨ (w.superInit arg name).1 = .ok ()) :
    (w.superInit arg name).2.databases = some (name :: ns) := by
  rcases w with ⟨d, l, c, ns, ws⟩
  obtain rfl := hw
  revert h1
  unfold World.superInit World.openStorage World.register
  cases arg <;> cases l <;> cases c <;> by_cases hn : name ∈ ns <;> simp_all

theorem fallback_databases (w : World V) (arg : StorageArg) (new : Outcome (Container V)) :
    (w.fallback arg new).2.databases = w.databases := by
  rcases w with ⟨d, l, c, ns, ws⟩
  unfold World.fallback World.closeUnlessFile World.close World.openStorage
  cases arg <;> cases l <;> cases c <;> rcases new with e | n <;> rcases d with _ | ⟨_ | _, o⟩ <;>
    simp [World.write, plainDb, fill, Disk.after]

/-- **C116 (counterexample: databases).** With a `databases` dictionary the constructor raises for every storage, whatever it holds: it
enters itself twice. -/
theorem open_databases_counterexample (w : World V) (ns : List String) (hw : w.databases = some ns) (arg : StorageArg) (name : String) :
    ∃ e, (w.openDb arg name).1 = .error e := by
  unfold World.openDb World.openWith
  rcases hs : w.superInit arg name with ⟨e | u, w1⟩
  · by_cases he : e = .posKey
    · subst he
      have h1 := superInit_registers w ns hw arg name (.inl (by rw [hs]))
      rw [hs] at h1
      rcases hf : w1.fallback arg (Container.new (V := V)) with ⟨e | u, w2⟩
      · exact ⟨e, by simp only [hf]⟩
      · have h2 := fallback_databases w1 arg (Container.new (V := V))
        rw [hf] at h2
        simp only [hf]
        exact superInit_taken w2 (name :: ns) (h2.trans h1) arg name (by simp)
    · exact ⟨e, by cases e <;> first | exact absurd rfl he | rfl⟩
  · have h1 := superInit_registers w ns hw arg name (.inr (by rw [hs]))
    rw [hs] at h1
    exact superInit_taken w1 (name :: ns) h1 arg name (by simp)

/-- C116, more exactly: with a FileStorage object and a name not in use the error is ValueError, and the name stays taken. -/
theorem open_databases_file_storage (w : World V) (ns : List String) (hw : w.databases = some ns) (hc : w.closed = false) (name : String)
    (hn : name ∉ ns) (hd : w.disk = none ∨ stored w.disk ≠ none) :
    (w.openDb .fileStorage name).1 = .error .valueError ∧ (w.openDb .fileStorage name).2.databases = some (name :: ns) := by
  rcases w with ⟨d, l, c, ns, ws⟩
  obtain rfl : c = false := hc
  obtain rfl := hw
  unfold World.openDb
  obtain ⟨c, hc, _⟩ := new_default (V := V) false
  rw [hc]
  rcases d with _ | ⟨_ | _, o⟩ <;> simp [stored] at hd <;>
  simp [World.openWith, World.superInit, World.openStorage, World.register, World.fallback, World.closeUnlessFile, World.write, plainDb,
    fill, connect, Conn.init, done, Disk.after, hn]

/-- C116: opening a path under a name that is taken raises ValueError after the file was opened: nothing is stored, but the file stays locked, so that the next
opening of it raises too, whatever its name. -/
theorem open_taken_name_locks (w : World V) (ns : List String) (hw : w.databases = some ns) (hl : w.locked = false) (name : String) (hn : name ∈ ns) :
    (w.openDb .path name).1 = .error .valueError ∧ (w.openDb .path name).2 = { w with locked := true } ∧
      ∀ other, ((w.openDb .path name).2.openDb .path other).1 = .error .lockError := by
  rcases w with ⟨d, l, c, ns', ws⟩
  obtain rfl := hw
  obtain rfl : l = false := hl
  simp [World.openDb, World.openWith, World.superInit, World.openStorage, World.register, hn]

/-- C116: a database that is given no name is called "unnamed", and that is the name which stays taken in the `databases` dictionary. -/
theorem open_unnamed (w : World V) (ns : List String) (hw : w.databases = some ns) (hc : w.closed = false)
    (hn : "unnamed" ∉ ns) (hd : w.disk = none ∨ stored w.disk ≠ none) :
    (w.openDb .fileStorage).2.databases = some ("unnamed" :: ns) :=
  (open_databases_file_storage w ns hw hc "unnamed" hn hd).2

/-- C116: the defaults of `connect`: not strict, "unnamed". -/
theorem client_defaults (w : World V) : w.clientConnect = w.clientConnect false "unnamed" := rfl

/-- **C41, C116, client.** `ContainerClient.connect`: a server whose storage holds a container is not changed; one with a root object but
no container is refused with IncompatibleDatabaseError and not changed; with a new one connecting fails and nothing is stored. -/
theorem client_connect (w : World V) (hw : w.Plain) (strict : Bool) (name : String) :
    (∀ r c, w.disk = some r → r.container = some c → (w.clientConnect strict name).1 = .ok () ∧ (w.clientConnect strict name).2.disk = some r) ∧
    (∀ r, w.disk = some r → r.container = none →
      (w.clientConnect strict name).1 = .error .incompatibleDatabase ∧ (w.clientConnect strict name).2.disk = some r) ∧
    (w.disk = none → (w.clientConnect strict name).1 = .error .storageError ∧ (w.clientConnect strict name).2.disk = none) := by
  rcases w with ⟨d, l, c, ns, ws⟩
  obtain ⟨rfl, rfl, rfl⟩ := hw
  unfold World.clientConnect World.openDb
  obtain ⟨c, hc, _⟩ := new_default (V := V) false
  rw [hc]
  refine ⟨?_, ?_, ?_⟩
  · rintro r c rfl hr
    simp [World.openWith, World.superInit, World.openStorage, World.register, World.clientFill, World.write, fill, connect, Conn.init, done, Disk.after, hr]
  · rintro r rfl hr
    simp [World.openWith, World.superInit, World.openStorage, World.register, connect, Conn.init, done, hr]
  · rintro rfl
    simp [World.openWith, World.superInit, World.openStorage, World.register, World.fallback, World.closeUnlessFile, World.close, connect, done]

end Verif.Props
