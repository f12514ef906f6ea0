import Verif.Db.ContainerDb
import Verif.Props.Connection

/-!
# Opening and creating databases (C41, C42, C75, C76)
-/
namespace Verif.Props
open Verif Verif.Storage Verif.Spec Verif.Db
variable {V : Type}
attribute [local irreducible] Container.new

/-- What the storage holds when the operation is over. -/
def _root_.Verif.Db.Opened.final (o : Opened V) (d : Disk V) : Disk V := d.after o.writes

/-- What the storage may hold after a crash during the operation: some of its commits,
in order, were made. -/
def CrashPoint (o : Opened V) (d d' : Disk V) : Prop := ∃ k, d' = d.after (o.writes.take k)

/-- The stored container, if there is one. -/
def stored (d : Disk V) : Option (Container V) := d.bind Root.container

/-- Is `c` the container that a new storage gets by default? -/
structure DefaultContainer (c : Container V) (strict : Bool) : Prop where
  empty : ∀ id, c.first id = none
  size : c.size = 0
  capacity : 100000 ≤ c.capacity
  strict : c.strict = strict
  reach : ContReach c
  primary : c.groups = [c.primary]

theorem new_default (s : Bool) : ∃ c : Container V, Container.new (strict := s) = .ok c ∧ DefaultContainer c s := by
  obtain ⟨c, h, h1, h2, h3, _, h5, _, h7⟩ := container_new (V := V) defaultContainerSize
    defaultCollectionSize s (by decide) (by decide)
  exact ⟨c, h, h3, h2, h5, h7, new_reach h, h1⟩

theorem openDbWith_none {new : Outcome (Container V)} {c : Container V} (hc : new = .ok c) :
    openDbWith new (none : Disk V) = ⟨.ok (), [{}, { container := some c }]⟩ := by
  subst hc; rfl

theorem openDbWith_some (new : Outcome (Container V)) (r : Root V) :
    openDbWith new (some r) =
      ⟨match r.container with | none => .error .incompatibleDatabase | some _ => .ok (), []⟩ := by
  have : connect (some r) = Conn.init r.container true := rfl
  unfold openDbWith
  rw [this]
  cases r.container <;> rfl

theorem openDb_none {c : Container V} (hc : Container.new = .ok c) :
    openDb (none : Disk V) = ⟨.ok (), [{}, { container := some c }]⟩ := openDbWith_none hc

theorem openDb_some (r : Root V) :
    openDb (some r) = ⟨match r.container with | none => .error .incompatibleDatabase | some _ => .ok (), []⟩ :=
  openDbWith_some _ r

/-! ### C41 -/

/-- **C41.** Opening a storage (`ContainerDb(...)`, `load`): if it holds a container it is not
changed at all and the opening succeeds; if it holds a root without container,
IncompatibleDatabaseError is raised and it is not changed; if it is new it gets an empty
default container. Connecting raises IncompatibleDatabaseError exactly when there is a root
without container. -/
theorem database_open :
    (∀ (r : Root V) (c : Container V), r.container = some c →
      (openDb (some r)).result = .ok () ∧ (openDb (some r)).writes = []) ∧
    (∀ r : Root V, r.container = none →
      (openDb (some r)).result = .error .incompatibleDatabase ∧ (openDb (some r)).writes = []) ∧
    (∃ c : Container V, (openDb (none : Disk V)).result = .ok () ∧
      (openDb none).final none = some { container := some c } ∧ DefaultContainer c false) ∧
    (∀ (d : Disk V) (a : Bool), (connect d a = .error .incompatibleDatabase ↔ d ≠ none ∧ stored d = none) ∧
      (∀ c, stored d = some c → ∃ conn, connect d a = .ok conn ∧ conn.tm.work = c ∧ conn.tm.committed = c ∧
        conn.autocommit = a)) := by
  refine ⟨?_, ?_, ?_, ?_⟩
  · intro r c h
    rw [openDb_some, h]; exact ⟨rfl, rfl⟩
  · intro r h
    rw [openDb_some, h]; exact ⟨rfl, rfl⟩
  · obtain ⟨c, hc, hd⟩ := new_default (V := V) false
    refine ⟨c, ?_, ?_, hd⟩ <;> simp only [Opened.final, openDb_none hc, Disk.after]
  · intro d a
    cases d with
    | none => simp [connect, stored]
    | some r =>
      cases hr : r.container with
      | none => simp [connect, stored, hr, Conn.init]
      | some c => simp [connect, stored, hr, Conn.init, Conn.autocommit]

/-- C41: opening twice is the same as opening once (on every storage). -/
theorem database_open_idempotent (d : Disk V) :
    (openDb ((openDb d).final d)).writes = [] ∧
    (openDb ((openDb d).final d)).result = (openDb d).result := by
  obtain ⟨h1, h2, ⟨c, h3, h4, h5⟩, _⟩ := database_open (V := V)
  cases d with
  | none => rw [h4, h3]; exact ⟨(h1 _ c rfl).2, (h1 _ c rfl).1⟩
  | some r =>
    cases hr : r.container with
    | none => rw [Opened.final, (h2 r hr).2]; exact ⟨(h2 r hr).2, rfl⟩
    | some c => rw [Opened.final, (h1 r c hr).2]; exact ⟨(h1 r c hr).2, rfl⟩

/-! ### C42 -/

/-- What `create` leaves on disk. -/
theorem createDb_spec (d : Disk V) (capacity : Nat) (create strict : Bool) (hc : 1 ≤ capacity) :
    ∃ c : Container V, Container.new capacity = .ok c ∧
      (createDb d capacity create strict).1.result = .ok () ∧
      (createDb d capacity create strict).1.final (createDb d capacity create strict).2 =
        some { container := some c, others := if create then [] else (d.map Root.others).getD [] } := by
  obtain ⟨c, h, _⟩ := container_new (V := V) capacity defaultCollectionSize false hc (by decide)
  refine ⟨c, h, ?_⟩
  unfold createDb
  rw [h]
  cases create <;> cases d <;> simp [createDbWith, plainDb, Disk.after, Opened.final]

/-- **C42 (partial: strict).** `create` and `new` store an empty container of at least the
requested capacity (exactly that capacity up to the collection size) and the database then
opens; its strict flag is False whatever was asked for. -/
theorem database_create_partial (d : Disk V) (capacity : Nat) (create strict : Bool) (hc : 1 ≤ capacity) :
    ∃ c : Container V,
      (createDb d capacity create strict).1.result = .ok () ∧
      stored ((createDb d capacity create strict).1.final (createDb d capacity create strict).2) = some c ∧
      (newDb d capacity create strict).1.result = .ok () ∧
      (newDb d capacity create strict).1.writes = (createDb d capacity create strict).1.writes ∧
      (newDb d capacity create strict).2 = (createDb d capacity create strict).2 ∧
      (∀ id, c.first id = none) ∧ c.size = 0 ∧ capacity ≤ c.capacity ∧
      (capacity ≤ 5000 → c.capacity = capacity) ∧ ContReach c ∧ c.primary ∈ c.groups ∧
      c.strict = false := by
  obtain ⟨c, h, h1, h2⟩ := createDb_spec d capacity create strict hc
  obtain ⟨c', h', k1, k2, k3, _, k5, k6, k7⟩ :=
    container_new (V := V) capacity defaultCollectionSize false hc (by decide)
  rw [h] at h'; injection h' with h'; subst h'
  have h2' := h2
  unfold Opened.final at h2'
  obtain ⟨o1, o2⟩ := (database_open (V := V)).1 { container := some c, others := if create then [] else (d.map Root.others).getD [] } c rfl
  refine ⟨c, h1, by rw [h2]; rfl, ?_, ?_, ?_, k3, k2, k5, k6, new_reach h, by rw [k1]; simp, k7⟩ <;>
    (unfold newDb loadAfter; simp only [h1, h2', o1, o2, List.append_nil])

/-- **C42 (counterexample).** `ContainerDb.new(file, strict=True)` stores a container that
is not strict. -/
theorem database_create_strict_counterexample (d : Disk V) (capacity : Nat) (create : Bool)
    (hc : 1 ≤ capacity) :
    ∃ c : Container V, stored ((newDb d capacity create true).1.final (newDb d capacity create true).2) = some c ∧
      c.strict = false := by
  obtain ⟨c, _, h2, _, h4, h5, _, _, _, _, _, _, hs⟩ := database_create_partial d capacity create true hc
  refine ⟨c, ?_, hs⟩
  unfold Opened.final at h2 ⊢
  rw [h4, h5]; exact h2

/-- C42: a capacity of 0 is refused before anything is touched. -/
theorem database_create_zero (d : Disk V) (create strict : Bool) :
    (∃ e, (createDb d 0 create strict).1.result = .error e) ∧
    (createDb d 0 create strict).1.final (createDb d 0 create strict).2 = d := by
  obtain ⟨e, he⟩ := (container_new_errors (V := V) 0 defaultCollectionSize false).2 (.inl rfl)
  unfold createDb
  rw [he]
  exact ⟨⟨e, rfl⟩, rfl⟩

/-! ### C75 -/

/-- **C75 (counterexample, every database).** `ContainerDb.create(file)` and `new(file)` on an
existing database, without `create=True`, replace its container by an empty one: no object
stored before is found afterwards. -/
theorem database_create_discards (r : Root V) (capacity : Nat) (strict : Bool) (hc : 1 ≤ capacity) :
    ∃ c : Container V,
      (createDb (some r) capacity false strict).1.final (createDb (some r) capacity false strict).2 =
        some { container := some c, others := r.others } ∧
      (∀ id, c.first id = none) := by
  obtain ⟨c, h, _, h2⟩ := createDb_spec (some r) capacity false strict hc
  obtain ⟨c', h', _, _, k3, _⟩ := container_new (V := V) capacity defaultCollectionSize false hc (by decide)
  rw [h] at h'; injection h' with h'; subst h'
  exact ⟨c, h2, k3⟩

/-- C75, C42: with all arguments left out the other entries of the root object are kept and the new container holds at least
100000 objects. -/
theorem database_create_default (r : Root V) :
    ∃ c : Container V, (createDb (some r)).1.final (createDb (some r)).2 = some { container := some c, others := r.others } ∧
      (∀ id, c.first id = none) ∧ 100000 ≤ c.capacity ∧ c.strict = false := by
  obtain ⟨c, h, _, h2⟩ := createDb_spec (some r) defaultContainerSize false false (by decide)
  obtain ⟨c', h', _, _, k3, _, k5, _, k7⟩ := container_new (V := V) defaultContainerSize defaultCollectionSize false (by decide) (by decide)
  rw [h] at h'; injection h' with h'; subst h'
  exact ⟨c, h2, k3, k5, k7⟩

/-- Concretely: a database with the object "a" loses it. -/
theorem database_create_counterexample :
    ∃ r : Root Nat, (∃ c, r.container = some c ∧ ContReach c ∧ c.first "a" = some 1) ∧
      ∃ c, stored ((newDb (some r)).1.final (newDb (some r)).2) = some c ∧ c.first "a" = none := by
  refine ⟨{ container := some (twoGroups 0 false) }, ⟨_, rfl, twoGroups_reach 0 (by decide) false, by decide +kernel⟩, ?_⟩
  obtain ⟨c, _, h2, _, h4, h5, h6, _⟩ :=
    database_create_partial (some { container := some (twoGroups 0 false) }) defaultContainerSize false false (by decide)
  refine ⟨c, ?_, h6 "a"⟩
  unfold Opened.final at h2 ⊢
  rw [h4, h5]; exact h2

/-! ### C76 -/

/-- **C76 (partial: storages with a root).** A crash while opening a storage that already has a
root object changes nothing. -/
theorem database_open_crash_partial (r : Root V) (d' : Disk V)
    (h : CrashPoint (openDb (some r)) (some r) d') : d' = some r := by
  obtain ⟨k, rfl⟩ := h
  have hw : (openDb (some r)).writes = [] := by
    cases hr : r.container with
    | none => exact ((database_open (V := V)).2.1 r hr).2
    | some c => exact ((database_open (V := V)).1 r c hr).2
  rw [hw]; simp [Disk.after]

/-- **C76 (counterexample).** Opening a new storage, and creating one, have a crash point after
which the database can never be opened: the root object is there, the container is not,
and every opening raises IncompatibleDatabaseError. -/
theorem database_create_crash_counterexample (capacity : Nat) (create strict : Bool) (hc : 1 ≤ capacity) :
    CrashPoint (openDb (none : Disk V)) none (some {}) ∧
    CrashPoint (createDb (none : Disk V) capacity create strict).1 (createDb (none : Disk V) capacity create strict).2
      (some {}) ∧
    ∀ n, (Nat.iterate (fun d => (openDb d).final d) n (some {} : Disk V)) = some {} ∧
      (openDb (some {} : Disk V)).result = .error .incompatibleDatabase := by
  obtain ⟨c, hc', _⟩ := container_new (V := V) capacity defaultCollectionSize false hc (by decide)
  obtain ⟨c0, hc0, _⟩ := new_default (V := V) false
  obtain ⟨k1, k2⟩ := (database_open (V := V)).2.1 {} rfl
  refine ⟨⟨1, ?_⟩, ⟨1, ?_⟩, ?_⟩
  · rw [openDb_none hc0]; rfl
  · unfold createDb
    rw [hc']
    cases create <;> rfl
  · intro n
    refine ⟨?_, k1⟩
    induction n with
    | zero => rfl
    | succ n ih => rw [Function.iterate_succ, Function.comp, Opened.final, k2]; exact ih

/-! ### from creation to sessions -/

variable [Truthy V]

/-- A database made by `ContainerDb.new` and used through any sessions with crashes holds
exactly what the ledger of C38 says, starting from an empty container. -/
theorem database_life (capacity : Nat) (create strict : Bool) (hc : 1 ≤ capacity) (d : Disk V)
    (a : Bool) (es : List (Event V)) :
    ∃ (c0 : Container V) (conn : Conn V),
      stored ((newDb d capacity create strict).1.final (newDb d capacity create strict).2) = some c0 ∧
      connect ((newDb d capacity create strict).1.final (newDb d capacity create strict).2) a = .ok conn ∧
      (∀ id, c0.first id = none) ∧ ConnReach (conn.steps es) ∧
      (conn.steps es).tm.committed = replay c0 (Ledger.steps c0 {} es).stored := by
  obtain ⟨c0, _, h2, _, h4, h5, h6, _, _, _, hr, _⟩ := database_create_partial d capacity create strict hc
  have hst : stored ((newDb d capacity create strict).1.final (newDb d capacity create strict).2) = some c0 := by
    unfold Opened.final at h2 ⊢
    rw [h4, h5]; exact h2
  generalize (newDb d capacity create strict).1.final (newDb d capacity create strict).2 = D at hst ⊢
  cases D with
  | none => simp [stored] at hst
  | some r =>
    have hrc : r.container = some c0 := by simpa [stored] using hst
    obtain ⟨conn, hconn⟩ : ∃ conn, Conn.init (some c0) a = .ok conn := ⟨_, rfl⟩
    refine ⟨c0, conn, hst, by show Conn.init r.container a = _; rw [hrc, hconn], h6, ?_, ?_⟩
    · have : ∀ (es : List (Event V)) (c : Conn V), ConnReach c → ConnReach (c.steps es) := by
        intro es
        induction es with
        | nil => intro c h; exact h
        | cons e es ih => intro c h; exact ih _ (.step c e h)
      exact this es conn (.init c0 a conn hr hconn)
    · exact (connection_history c0 a conn hconn es).1

end Verif.Props
