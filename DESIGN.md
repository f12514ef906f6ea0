# Formal model of masonlogan1/socialweb — design

## What this is

`/verif/lean` is a Lake project with a Lean 4 model of the logic of the pinned
commit of `masonlogan1/socialweb` (`/repo`), and machine-checked theorems about
it.  `properties.jsonl` lists the properties, `MANIFEST.json` maps each of them
to theorem names, `seeded/LOG.jsonl` logs the mutation tests.

Layout (all under `lean/Verif/`):

* `Py.lean` – Python values, truthiness, exceptions used by the model.
* `Storage/*.lean`, `Db/*.lean`, `Jsonld/*.lean`, `AS/*.lean` – the **model**:
  executable functions, one per function of the code, each with a citation
  `file:lines` and a note about simplifications.  `AS/Tables.lean` is generated
  from the source text of `/repo/activitystreams` by `tools/gen_tables.py` and
  committed.
* `Spec/*.lean` – the small independent **specifications** used in statements:
  `Map` (plain maps), `Store` (transactional map), `Snapshot` (snapshot
  isolation, linearizability), `Vocabulary` (the W3C ActivityStreams 2.0 types,
  domains and ranges, written from the W3C text and not from the code).
* `Lemmas/*.lean` – helper lemmas.
* `Props/*.lean` – the **property theorems**, one file per area, with a
  non-vacuity `example` next to each conditional theorem.

## Trusted base

* Lean 4.33.0's kernel, and Mathlib's definitions where a statement uses them
  (`Nat.Prime`, `List.Pairwise`, `List.Perm`, linear order on `String`, ...).
* Axioms: at most `propext`, `Classical.choice`, `Quot.sound` (see
  `#print axioms` in the vcheck report). No axioms are added; no compiled code
  is trusted.
* The reading of the Python source by the author of the model. Nothing was
  executed; the citations are there for re-reading.
* Assumed behaviour of libraries, each stated where it is modelled:
  * `BTrees.OOBTree` is a map sorted by key (insert/update/pop/popitem/
    setdefault/minKey/maxKey/iteritems with inclusive bounds as documented).
  * `ZODB`/`transaction`, one connection (`Db/Transaction.lean`): `begin`
    discards pending changes, `commit` makes the working state durable or
    raises (at any moment; an oracle decides), a failed commit leaves a
    transaction in which every call raises until it is aborted, `abort` and a
    crash restore the last committed state.
  * `ZODB`, several connections (`Db/Concurrent.lean`, C98 - C110, C149, C157 - C159): MVCC
    snapshots taken when a transaction begins; commit is atomic and refused if
    an object changed by the transaction was changed on disk since; BTrees merge
    such changes key by key; every other persistent object (a Collection's
    flag, a Container's tuple of groups) is one unit; every further refusal
    (split or emptied buckets, I/O) is covered by the oracle `ok`.
  * `ZODB`, crashes (`Db/Crash.lean`, C150): the transaction of a process that
    dies while committing is written completely or not at all, after the same
    check for conflicts; one whose commit returned is on disk.
  * `ZODB`, connection objects (`Db/Pool.lean`, C112 - C114): `DB.open` reuses
    the connection closed last or makes one, with a new transaction manager and
    the stored state; the pool may forget old connections at any moment; `close`
    raises for a connection that has joined a transaction and otherwise drops
    its manager; closing twice does nothing.
  * `ZODB.DB.__init__` and `close` (`Db/Open.lean`, `Db/Cluster.lean`, C116,
    C119): a path is opened as a FileStorage, which locks its file, None as a
    new MappingStorage; then the name is entered in `databases` (ValueError if
    taken), then a connection is opened; a closed storage object refuses use;
    `ZODB.DB` is no context manager.
  * `pickle` (`Db/Pickle.lean`, C127): an instance is written as a reference to
    its class by module and name, which must lead back to that class, followed
    by its attributes; loading looks the name up.
  * `ZODB` and `transaction`, threads (`Db/Crew.lean`, C130):
    `transaction.ThreadTransactionManager` is a `threading.local`, so each
    thread has its own transaction and its own attributes; a ZODB connection
    joins the current transaction of the thread that makes the first change
    and no other one until that transaction ends; ending a transaction that
    the connection has not joined does not touch its objects.
  * `ZODB`, records (`Db/Live.lean`, C128): a stored object that is not itself
    persistent is part of the record of its B-tree bucket, which notices that an
    entry is set or deleted but not that an object in it changes; commit writes
    the noticed records as they are, abort drops these only, and the cache may
    drop the others.  Which ids share a record is fixed (any assignment).
  * `pyld.expand`, `requests.get`, `validate_email`, constructors of user
    classes and `repr` of property objects are parameters of the model
    (arbitrary functions, possibly failing).  `urlsplit` is modelled, but for
    the validity of bracketed hosts (oracle `bracketOk`).  Regular expressions
    are a matcher that lists all ways to match (`Jsonld/Pattern.lean`).
    `json.dumps`/`json.loads` are modelled from the text of the standard library
    (`Jsonld/Text.lean`; `float` of a text is a parameter, the recursion limit and
    halves of surrogate pairs are not modelled, nor the limit of 4300 digits of ints).
    `datetime.strptime` is modelled for the formats in use, `re.ASCII`-like
    digits, no time zones with seconds.
  * Python's C3 linearisation and attribute lookup are modelled
    (`Jsonld/Clone.lean`, `Jsonld/Members.lean`).
  * Executing the `__init__` of a database module is an oracle
    (`run : String → Outcome Executed`).
* Python `str` is modelled by Lean `String` (Unicode scalar values: lone
  surrogates, which `str.encode()` rejects anyway, are excluded); `int` by `Int`
  / `Nat`; floats appear only in `usage`, `ceil` and `sqrt` and are modelled by exact
  arithmetic; `Storage/Float.lean` models the same lines in binary64, and C126
  proves that both agree (limits up to 2^45, capacities up to 2^52).
* Python objects that are mutated through shared references are modelled by a
  heap (`Nat → Group`) where the sharing is observable (container groups), else
  by values.

## Modelled / not modelled

| code | model | remarks |
|---|---|---|
| `citrine/storage/utils.py` | `Storage/Utils` | `byValue`, primes, hashing |
| `citrine/storage/collection.py` | `Storage/Tree`, `Storage/Collection` | every method |
| `citrine/storage/group.py` | `Storage/Group` | every method; the k-way merges as loops |
| `citrine/storage/container.py` | `Storage/Container`, `Db/Amid` | groups live in a heap (they are shared by reference); `resize`/`condense` with and without a transaction manager, as traces of commits |
| `usage` properties of collection.py, group.py, container.py | `Storage/Usage`; with binary64 floats: `Storage/Float` | |
| `citrine/storage/transaction.py` | `Db/Transaction` (`Tm`) | autocommit, `with`, failing commits |
| `citrine/connection/container_connection.py` | `Db/Connection`, `Db/Program` (programs with blocks) (`Conn`, `DbOp`, `Event`) | |
| `citrine/connection/connection.py`, `citrine/persistence.py` | `Db/Legacy`; `setup`: `Db/Setup` | |
| `citrine/connection/group_connection.py`, `citrine/cluster_tools/**` | `Db/Legacy` (reads, registry), `Db/Setup` (connections), `Db/Modules`, `Db/Cluster`, `Db/ModuleSize` | directories are maps from paths to files; `validate_module_registration` ends at its first line |
| `citrine/database/containerdb.py`, `citrine/client/container_client.py` | `Db/ContainerDb` (FileStorage), `Db/Open` (all storages, `databases`, client), `Db/Concurrent` (many connections), `Db/Parties` (adaptive programs sharing a database), `Db/Crash` (dying processes), `Db/Pool` (open, close, `with db`), `Db/Pickle` (what can be stored), `Db/Live` (references and records), `Db/Crew` (threads on one connection), `Db/Figures` (capacity, used, usage, status), `Db/Client` (adaptive clients of a connection) | root object and disk |
| `jsonld/base.py` | `Jsonld/Context`, `Jsonld/Members`, `Jsonld/Items`, `AS/Property` | |
| `jsonld/jsonld.py` | `Jsonld/Data`, `Jsonld/Text` (the text of `json`), `Jsonld/Graph` (shared and cyclic values), `Jsonld/MemData` (with references), `AS/Output` | |
| `jsonld/engine/json_input.py`, `jsonld_engine.py` | `Jsonld/Intake`, `AS/Text` (`from_json` of a text), `Jsonld/Mem` (with references), `Jsonld/Package` | |
| `jsonld/package.py`, `activitystreams/package.py` | `Jsonld/Package`, `Jsonld/Relink` (changes after construction), `AS/Package` | |
| `jsonld/kamino.py` | `Jsonld/Clone`, `Jsonld/Change`, `AS/Change` | cloning, `change_class`, wrapped getters |
| `jsonld/docloader.py` | `Jsonld/Docloader`; threads: `Jsonld/Threads` | |
| `jsonld/tools/*.py`, `jsonld/utils.py` | `Jsonld/{DateTime,Pattern,Url,Validate,Value}`, `Jsonld/Get` (`jsonld_get`) | |
| `jsonld/engine/utils.py` | `Jsonld/Stringify` (`stringify`, `PROPERTY_TRANSFORM_MAP`), `Jsonld/Url`, `Jsonld/DateTime` | nothing calls it |
| `activitystreams/properties.py`, `models.py` | `AS/{Rows,Tables,Property,Link,Model}`, `AS/Alias` (with references), `AS/Walk` (requests, expressions) | one table row per property; constructors as assignment lists |

Model validation: `Props/UnitTests.lean` transcribes the assertions of the repository's
tests of collections, groups and containers (citrine/tests/storage) as examples that the
kernel evaluates on the model. They are no claims; they show that the model does what
the authors' tests say the code does. The tests of connections and databases
(citrine/tests/connection, citrine/tests/database) were compared by reading.

Simplifications that matter for reading the theorems:

* Values (`Val`) are finite trees; cyclic object graphs are excluded, except in
  `Jsonld/Graph.lean` (C121).
* Getters wrapped by kamino convert nested values in place; the getter model
  (`get`) does not do this, `AS/Change.lean` (`readObject`, `readAll`) does.
* Characters are Unicode scalars; case conversion and classes of characters in
  patterns are ASCII.

Not modelled: `citrine/storage/storage.py` (cannot be imported: it uses names
that do not exist), `CitrineCrystal` and other empty stubs, the unused constants of
`jsonld/engine/utils.py`, ZODB's storage format, BTree bucket
layout, memory models of real threads (for sessions, schedules interleave whole
steps - transaction begin, body, commit -, for C105 and C106 single reads and
writes of shared attributes, which the GIL makes atomic), logging, UUID generation (assumed distinct),
wall-clock, HTTP, JSON-LD expansion, e-mail validation internals.

## Method per property

See the table at the end of this file ("Property plan"). Where the unchanged
code violates a property, the model follows the code; the file then contains
(a) a theorem proving the *negation* with a concrete witness
(`..._counterexample`) and (b) the strongest true part as `..._partial`.

## Property plan

| id | property | plan |
|---|---|---|
| C01 | number_of_collections is the smallest prime that fits | Model the generator loop as a search with a proof of termination from `Nat.exists_infinite_primes`; spec: `Nat.Prime`, minimality. |
| C02 | is_prime decides primality | Trial-division loop; Python's `int(math.sqrt(n))` (a float) is modelled by `Nat.sqrt`, which agrees below 2^52; `↔ Nat.Prime n` for n ≥ 2. |
| C03 | A new container holds at least what was asked for | Model Container.new; arithmetic on the result. |
| C04 | Every collection of a group is reachable when the number of collections is prime | utf-8 big-endian hash; constructive id for every residue when 256 is invertible mod n (prime ≠ 2) or n ∈ {1,2}; counterexample n = 256. |
| C05 | A collection behaves as an ordered map | Refinement: history of calls against a plain function `String → Option V`. |
| C06 | Collection views are sorted and complete | Sortedness invariant + membership characterisation. |
| C07 | minKey and maxKey of a collection are the extreme keys | Extremality proofs from sortedness. |
| C08 | A strict collection never exceeds max_size | Invariant by induction over histories; false because setdefault ignores the limit → counterexample + _partial without setdefault. |
| C09 | Re-writing an existing key never raises a capacity error | False for insert/write (code checks the limit before looking at the key) → counterexample; update alone is proved. |
| C10 | status reflects usage | Exact integer arithmetic for ceil(100*size/max). |
| C11 | A group behaves as one map whatever the number of collections | Refinement to an abstract map via the routing invariant. |
| C12 | Size bookkeeping of groups and containers is exact | Routing invariant ⇒ key lists of collections are disjoint ⇒ size = number of keys. |
| C13 | Group.iterkeys merges all collections in key order | k-way merge loop modelled; sorted + permutation, guarded on non-empty keys; counterexample with the '' key. |
| C14 | Group.iteritems merges all collections in key order | Same for iteritems. |
| C15 | Group.itervalues lists all values | Merge on values; permutation for truthy values; counterexample for falsy values. |
| C16 | byValue is sorted and exact | mergeSort characterised by sortedness + permutation. |
| C17 | minKey/maxKey/popitem of a group are the extremes | Proved when every collection is non-empty; counterexample when one is empty (_partial). |
| C18 | A strict group never exceeds its limits | Invariant over histories. |
| C19 | A failing call on a group changes nothing | insert/pop/setdefault proved; update counterexample + _partial. |
| C20 | Group.new builds the requested layout | Model Group.new; strict ignored → counterexample + _partial. |
| C21 | Turning strict on or off applies to every collection | Direct. |
| C22 | Read your latest write | Refinement over histories of write/delete/resize/condense; guarded on truthy values and on deletes that meet the prefix condition. |
| C23 | write reports creation and never touches other ids | Frame theorem. |
| C24 | delete removes an id everywhere and returns the removed objects | Characterise exactly when delete succeeds (holders form a prefix); counterexample otherwise. |
| C25 | read returns exactly what is stored | Proved for truthy values; counterexample for falsy values. |
| C26 | condense loses no data and gives earlier groups priority | Induction over the transfer loop on the heap model. |
| C27 | Data stays readable at every step of condense | Trace semantics: every intermediate state of condense keeps all reads; any subset of commits effective. |
| C28 | resize keeps all data readable | Heap model of resize; reads preserved. |
| C29 | resize with a transaction manager survives a crash at any point | Trace semantics; false when condense=False with secondary groups → counterexample + _partial. |
| C30 | resize keeps the strict mode and refuses too small capacities | False (both) → counterexamples; partial: non-strict stays non-strict. |
| C31 | A failing condense loses nothing | False without transaction manager → counterexample; with transaction manager (abort) proved. |
| C32 | A strict container never exceeds its capacity | Invariant over histories. |
| C33 | create never overwrites | Connection model on committed/working state. |
| C34 | update upserts and returns the previous object | Connection model. |
| C35 | Subscript access agrees with read | Connection model. |
| C36 | With autocommit every successful call is durable and every failed call leaves no trace | Transaction model: invariant working = committed between autocommitted calls. |
| C37 | A with-block is atomic | Transaction model: all prefixes of a block. |
| C38 | A crash restores the last committed state | History semantics with crash; committed state = replay of the spec log. |
| C39 | Writes made with autocommit off are kept until committed or aborted by the user | False (begin aborts pending changes) → counterexample + _partial. |
| C40 | The autocommit option is honoured | False (constructor flag not passed to the manager) → counterexample + _partial. |
| C41 | Opening never discards an existing container | Model of open logic on the root object. |
| C42 | A new database has the requested capacity and strictness | capacity proved; strict ignored → counterexample + _partial. |
| C43 | DbContainer behaves as one map | Refinement to a map. |
| C44 | Expanding a DbContainer keeps every object reachable | False (no rehash) → counterexample; partial: ids whose index is unchanged stay. |
| C45 | The legacy connection is a durable map | Transaction model instantiated with DbContainer. |
| C46 | The cluster registry is a map of module records | Refinement to a map. |
| C47 | A group read returns the first hit and reports duplicates | Result independent of completion order; duplicate error never raised → counterexample + _partial. |
| C48 | Creating or destroying a database module touches nothing else | Abstract directory; frame theorems. |
| C49 | Property contexts are balanced | Stack machine, induction over nested programs. |
| C50 | Contextual accessors dispatch to the registered function | Finite maps of accessors. |
| C51 | Setter validation accepts exactly the allowed values | Value trees with nested lists; accept iff. |
| C52 | Non-negative properties never hold negative numbers | Invariant over assignment histories. |
| C53 | Durations survive formatting | Decode function as spec; counterexamples for zero and negative durations. |
| C54 | Timestamps survive a round trip | Formatting with zero padding; parser on the produced shape. |
| C55 | URL validation | urlparse result as parameter (scheme, netloc); host alphabet claim false (prefix match) → counterexample + _partial. |
| C56 | data() emits exactly the selected properties | Comprehension modelled on association lists. |
| C57 | data() is JSON-serialisable | Structural recursion over value trees. |
| C58 | Nested objects carry no context of their own and lose nothing else | Structural recursion; substring test drops other properties → counterexample + _partial. |
| C59 | The document cache is consistent | History over shared cache with network as an oracle stream; secure claim false → counterexample + _partial. |
| C60 | from_json builds the object of the declared type from declared properties only | Structural recursion with expansion as a parameter. |
| C61 | Class registration is unique | Registration fold. |
| C62 | Packages can be combined and subtracted | False (always raises) → counterexample. |
| C63 | Package contents are fixed after construction | State machine of assignments. |
| C64 | Property linking is exact | Model of the mapping loop. |
| C65 | Class cloning visits every class once, parents first, and terminates | Layered ordering loop on an arbitrary finite hierarchy; termination, permutation, order. |
| C66 | Changing an object's class loses no property value | Attribute store model. |
| C67 | Links reduce to their href | Value trees. |
| C68 | Expanding a link never fails and never loses the link | Oracle for network/parser; total result. |
| C69 | totalItems is consistent | Accessor model; histories. |
| C70 | The ActivityStreams package loads | Generated table, `decide +kernel` over the whole table. |
| C71 | Property setters and getters agree | Accessor table (attribute read / attribute written); hreflang is a counterexample. |
| C72 | get_primes lists the primes of a range | Generator as a stream; exact list; the bounded case is a counterexample. |
| C73, C74 | Failed commits; strict assignments | `Tm` with failing commits; counterexamples for every state. |
| C75, C76 | Creating and opening databases, crashes | Root object and disk model; crash between any two commits. |
| C77, C78, C94 | Database modules | Abstract directory and the group's registry. |
| C79 - C81, C85 - C87 | ActivityStreams properties, constructors, loading | Generated tables with general lemmas over all values, `Env`/`World` oracles; quantify over all values, arguments and documents. |
| C82, C83 | Class-level caches and namespaces | `Jsonld/Members`, `AS/Change`: class state as a heap; histories of reads. |
| C84 | A packaged class behaves like its original | C3 on original and cloned hierarchy. |
| C88 | Round trip | `AS/Output` composed with the intake model; structural induction on values. |
| C89 - C92 | Containers in use | `InUse`: everything reachable from the constructor; refinement to a map. |
| C93 | A database is a transactional map | Refinement of `Conn` to `Spec/Store` over all events incl. crashes and failing commits. |
| C95 | Dates | Exact language of `strptime` on texts against the Gregorian calendar. |
| C96, C97 | The vocabulary | Comparison with `Spec/Vocabulary.lean`; for all values. |
| C98, C99 | Snapshot isolation | Refinement of `Shared` (any number of sessions, any schedule, any number of groups) to `Spec/Snapshot`; invariant: all objects are in the primary group, old groups only lose copies. |
| C100 | Linearizability | Herlihy–Wing; the order of commits is the linearisation. |
| C101 - C104 | Serializability, stale reads, resize, strict limits among sessions | Counterexamples for every database (or a concrete one), and the true parts. |
| C105 | Threads and contexts | Small-step model of `switch_context` (each read and write one step); invariant on the stack; counterexample schedules. |
| C106 | Threads and the document cache | Small-step model of the cached loader; invariant on the log of events. |
| C107 | Usage figures | `Storage/Usage.lean`: ratios as rationals; mediant inequality over the collections, levels by `status_exact`, positivity of the limits as an invariant of every container call. |
| C108 | Strict mode only adds refusals | Every call commutes with switching `strict` off (`relax`) or raises a capacity error; histories by induction, refused calls removed. |
| C109 | Sessions share a map and the strict flag | C98 plus a register for the flag: the database with `strict` off everywhere simulates the shared map (C98), the flags follow the register; merges commute with switching `strict` off unless both sides changed the flag. |
| C110 | Non-overlapping transactions are serial | Every call keeps number, uuid and limit of the collections of all old groups (`From`), so the merge with an unchanged stored state is exactly the session's container; induction over the schedule against a trail of committed calls. C103 and C104 follow for such schedules from C89 and C32. |
| C111 | Building a container from groups | Unfold the constructor; setting strict keeps items, views and limits of the group (`group_setStrict`); reading by `container_read_partial`. |
| C112 | Connections are exclusive, closing drops nothing | Model of pool, connection flags and joined state (Db/Pool.lean) over the sessions of Db/Concurrent; invariants "the pool holds closed connections, once" and "not joined means nothing pending", the latter from: a call that touches nothing returns the container unchanged. |
| C113 | A with-db block has its own connection | Invariant over the block body (connection open, slot unchanged); counterexample for overlapping blocks. |
| C114 | A pooled connection is as good as new | Simulation between two connections that agree in session, disk and flags except the reported one. |
| C115 | Membership, iteration, addition of containers | Empty methods: counterexample for every container. |
| C116 | Opening from every kind of storage | `Db/Open.lean`: constructor over a world of disk, lock, closed flag and names; case analysis over argument kinds and stored states; refinement to `openDb` for FileStorage objects. |
| C117 | setup of connections | `Db/Setup.lean`: two `with self` blocks over the transaction manager model; all commit outcomes, all logged states. |
| C118 | GroupReadConnection's connections | Dictionary merges; induction over the databases. |
| C119 | ManagedGroupDB | `Db/Cluster.lean`: counterexamples for every directory, and what is left. |
| C120 | DbGroup.databases and size | Induction over histories against "the last assignment not deleted". |
| C121 | Writing object graphs | `Jsonld/Graph.lean`: values as cells of a heap, recursion bounded by the limit; exact conditions by induction over the limit and well-foundedness; agreement with the tree model. |
| C122 | Items and iteration | `Jsonld/Items.lean`; direct, counterexample for iterators. |
| C123 | transforms | `Jsonld/Items.lean`: the argument is unused; counterexample for all arguments. |
| C124 | Changing links | `Jsonld/Relink.lean`: histories of link/remove/refresh against "the last change decides"; iff for what is written. |
| C125 | Attributes of property objects | `Jsonld/Items.lean`; counterexample. |
| C126 | Floats | `Storage/Float.lean`: binary64 rounding over the reals; monotonicity, error bound, exactness on integers; equality with the exact model within bounds; Bertrand for the search. |
| C127 | Storing packaged objects | `Db/Pickle.lean`: pickle by class reference over value trees; clones share the home of their original, which is found there. Sessions whose commits need picklable contents. Counterexample for packaged objects; invariant and equality of histories for the others. |
| C128 | Changing objects that are in the database | `Db/Live.lean`: sessions over object references with contents, ZODB records that notice set and delete but not changes inside an object. Refinement of the transactional map of C93 for programs that change no object in the database; invariant for what is on disk; universally quantified counterexamples. |
| C129 | Falsy objects | The invariant of the histories of C22 needs no truthiness; reading is the first truthy copy, copies are traced to earlier writes; databases have one group, so the refinement of C93 is repeated for all objects with reading filtered. |
| C130 | Threads share a connection | `Db/Crew.lean`: one connection, one transaction and one autocommit switch per thread, the connection joined to at most one transaction. Between turns nothing is joined; during a turn the crew looks to its thread like the session of C93 (simulation), so turns refine sessions on one map. Universally quantified counterexamples for overlapping blocks. |
| C131 | The figures of a connection | `Db/Figures.lean` (delegation to the container). A property of containers kept by every call is kept by every session, for what is seen and what is stored; applied to: one group with fixed limits (figures of C107 and C12), and: strict and within limits (C18). |
| C132 | Loading and aliasing | `Jsonld/Mem.lean`: json_input.py over a memory of addressed lists, dictionaries and instances, with a bound on the depth of calls. Nothing below the first free address changes (induction on the depth); a growing set of addresses, each new or inside a context, closed under references, contains all results; refinement to the tree model `Jsonld/Intake.lean` for documents within the depth. |
| C133 | Which properties follow Links | Rows of the table against the ranges of `Spec/Vocabulary.lean`; the getter, setter and JSON getter of a row as in `AS/Property.lean`. |
| C134 | What assigning and reading copies and shares | Setters on a memory of objects with addresses (`AS/Alias.lean`, on top of `Jsonld/Mem.lean`): induction on the depth of calls for what changes, what is copied and what the results are made of; refinement to `AS/Property.lean` for the contents. |
| C135 | data() makes new lists and dictionaries only | `Jsonld/MemData.lean`: `data` and its handler on a memory with addresses; all addresses from the first free one on refer to such addresses only (induction on the depth of calls); refinement to `Jsonld/Data.lean`. |
| C136 | Programs with with-blocks | `Db/Program.lean`: programs as trees with continuations after reads, run on `Conn`; `Spec/Program.lean` runs them on maps. Simulation by induction over programs (flat ones), invariant 'nothing is pending outside of blocks' for nested ones. |
| C137 | Walks through the social graph | `AS/Walk.lean`: requests of constructors, `from_json` of fetched data, the web of packaged objects (`asWeb`) and expressions as lists of steps. Specification: inductive relation `Leads`. Equivalence by induction over the expression; no requests by the invariant 'no items yet' of constructors. |
| C138 | The walk of the README | From the documents (`doc_field`, from C60 and C87) through the properties (C71, C133) to `Leads` (C137). |
| C139 | Headers and result of jsonld_get | `Jsonld/Get.lean`: the merge of line 50, and `requests` (library) as a case-insensitive dictionary filled in order; `str.lower` is a parameter. Normal form of the merged dictionary by induction, then last-match lemmas. |
| C140 | The text of an object is JSON and reads back | `Jsonld/Text.lean`: json.dumps and json.loads, character by character; `Spec/Json.lean`: the grammar of RFC 8259 as inductive relations between texts and data. Reader complete (`loads_reads`) and sound (`loads_iff`) by mutual inductions on derivations and on the depth of calls; writer by structural induction (`write_value`), then composition with C88. |
| C141 | The examples of the README, as texts | Composition of C88 (`output_tree`), C140 (text) and C81 (`loaded_properties_partial`), C138 (`readme_walk_partial`) for the registry of `createEngine`; the attributes of a new object by cases on the table of assignments. |
| C142 | The JSON of a new object shows what its constructor was given | Specification `OneShown`/`Shown` of what JSON is to show of a value; `held_given` (what the constructor keeps of its arguments, by the table of assignments), then C88 (`output_tree`) and C140 for the text. |
| C143 | A package lists ancestors first, and a subclass hides an ancestor of the same namespace | The buckets of `clone_classes` (Jsonld/Clone.lean `byDeps`) are a stable sort by the number of listed ancestors; `package[...]` is the last entry of the comprehension. |
| C144 | Walks through a network that changes | AS/Walk.lean `walkIn`: the network is a function of the number of requests made. Induction over the walk; each step by C137 in the network of that moment. |
| C145 | What `stringify` gives | `Jsonld/Stringify.lean`: conversion of finite nests of values by exact class. Induction over the nest: shape, idempotence, success iff, entries of dicts by position. |
| C146 | Commits of condense and resize | `Session.condense/resize` count the explicit commits and list the stored states. Counting by induction over keys and groups (a group is untouched until its turn); the stored states form a chain of single actions. |
| C147 | DbModule.size | `Db/ModuleSize`: the `with db` block of `size` on the pool model of C112, records and updates. The block is shown to give the connection back after every history; the missing attribute is part of the model. |
| C148 | Reorganising among other sessions | `Db/Amid`: the loops of `Storage.Session` with a turn of the others (a list of autocommit calls, chosen by an arbitrary schedule) after every commit that takes effect. Invariant: seen and stored container read the same, equal to the others' calls applied to the map at the beginning; groups dealt with are covered by the primary group; a key that has gone was deleted by the others. Everything stored on the way is logged and satisfies the same. Without turns the model equals that of C146 (`amid_alone`). |
| C149 | Conflicts and progress | `Db/Concurrent` (moves and steps of autocommitted calls), any flag, any number of groups, resizes included. Invariant `Sound`: stored and seen containers are tidy and every session's state came from its base, so `merge` with an unchanged disk gives the session's state. Counting: conflicts of a session ≤ commits of others, plus one to spare while its base is not what is stored. |
| C150 | Crashes while sessions work | `Db/Crash`: the steps of `Db/Concurrent` and crashes: any set of sessions dies, the commits of any of those about to commit are still made (in any order, each with the conflict check), then they open fresh. Specification `Durable`: linearizable with some of the cut-off calls added, each at most once and within the time its process was down. The invariant of C100 with the kept calls added to the past. |
| C151 | Crashes and blocks | `Db/Crash` (second half): moves of `Db/Concurrent` and crashes of any sessions, with the commits of some of them still made. Specification: the shared map of C98 with crashes. Simulation by the relation of C98, and C99 for histories with crashes because a crash equals commits and aborts. |
| C152 | Refused urls are never requested | `Jsonld/Docloader`: requests as output of `loaderGet` and `cachedRun`; acceptable urls by the shape specification of C55; the alternate link by cases on both relations. |
| C153 | Objects kept as JSON text | Composition of C93 (`Spec/Store`), C140 and C88; specification: ways to save (`Saves`) and events that leave an id alone (`Untouched`); invariant of the transactional map over all later events. |
| C154 | `engine.Name` is the class | `Jsonld/Package.lean` `loadAttrs`: the registry is in the order of the classes (invariant of loading), so a comprehension over it keeps the last; the shipped package by the namespaces after linking (C81). |
| C155 | A database with strict mode is a transactional map with limits | Refinement of `Conn` to `Spec/Limited`: invariant of the container (every slot has the same size and the flag of the database, contents as the map); fullness of a slot is counted in the map (`atLeast_iff`: n different ids with a property, by duplicate-free key lists). |
| C156 | No client can tell a database from a transactional map with limits | `Db/Client.lean`: requests, replies and adaptive clients; `Spec/Client.lean` answers every request from the map, the limits and the flags. Every request is answered alike and keeps the refinement of C155; induction on the number of requests. Figures: fullness of slots is counted in the map. |
| C157 | Sessions on one database share a map with limits, exactly | Simulation of `Shared` (Db/Concurrent) by `Boxes` (Spec/SharedLimits): every stored state and every view of a session is a container of the same layout holding a `Box` (invariant of C155 plus a frame); the merge of such containers is the merge of boxes: trees through the merge lemma of C98 on the groups without flags, flags by C109. |
| C158 | By how much several sessions can exceed the strict limits | On `Boxes` (C157): every stored id gets an owner, the session whose commit brought it; invariant: each session owns at most one full collection (database) and has seen what it owns when its transaction began, and a view with new ids is within the limit. Counting by owners. The bound is reached by an explicit schedule, by induction on sessions and ids. |
| C159 | Programs that share a database cannot tell it from a shared map with limits | `Db/Parties.lean`: wishes, adaptive programs and schedules with crashes; `Spec/Parties.lean` answers every wish from `Boxes`. Every wish is answered alike and keeps the simulation of C157 (looking: C156); induction on the schedule. |

## Findings: where the unchanged code violates a property

For each of these the model follows the code, a theorem refutes the full
statement (named `..._counterexample`, or listed in the manifest), and the
theorems marked `_partial` prove what is left of it. This table is written by
`tools/manifest.py` from the manifest.

<!-- findings -->
| id | property | what is and what is not true of the code |
|---|---|---|
| C08 | A strict collection never exceeds max_size | False of the code for setdefault, which ignores the limit (counterexample proved); proved for all other calls. Refuted by: `collection_strict_limit_counterexample`. |
| C09 | Re-writing an existing key never raises a capacity error | False of the code for insert and Container.write (counterexamples proved at collection, group and container level); proved for update, and for Container.write when the target collection has room. Refuted by: `collection_reinsert_counterexample`, `group_reinsert_counterexample`, `container_rewrite_counterexample`. |
| C13 | Group.iterkeys merges all collections in key order | False when the empty id is stored and no other collection has a key in bounds; proved otherwise, and the exact behaviour in that case is proved too. Refuted by: `group_iterkeys_counterexample`. |
| C14 | Group.iteritems merges all collections in key order | As C13. Refuted by: `group_iteritems_counterexample`. |
| C15 | Group.itervalues lists all values | False with falsy values; proved for truthy values. Refuted by: `group_itervalues_counterexample`. |
| C17 | minKey/maxKey/popitem of a group are the extremes | False when some collection has no key in bounds (ValueError); the exact condition is proved. Refuted by: `group_minKey_counterexample`. |
| C18 | A strict group never exceeds its limits | False for setdefault; proved for every other call. Refuted by: `group_strict_limit_counterexample`. |
| C19 | A failing call on a group changes nothing | False for update with CollectionCapacityError. Refuted by: `group_update_atomic_counterexample`. |
| C20 | Group.new builds the requested layout | The strict argument is ignored by the code. Refuted by: `group_new_strict_counterexample`. |
| C22 | Read your latest write | Proved for truthy objects and containers made by Container.new. False for falsy objects, which read skips: an older object can come back (Falsy.stale_object_counterexample); what holds for all objects is container_history_falsy, see C129. Refuted by: `stale_object_counterexample`. |
| C23 | write reports creation and never touches other ids | Needs the primary group first in group order; false otherwise (counterexample). Refuted by: `container_write_counterexample`. |
| C24 | delete removes an id everywhere and returns the removed objects | delete raises KeyError unless the groups holding the id come first; exact condition proved. Refuted by: `container_delete_counterexample`. |
| C25 | read returns exactly what is stored | False for falsy stored objects; proved for truthy ones. Refuted by: `container_read_counterexample`. |
| C26 | condense loses no data and gives earlier groups priority | Needs the primary group first (always so after new/resize). Refuted by: `container_condense_counterexample`. |
| C27 | Data stays readable at every step of condense | Needs the primary group first (always so after new/resize). Refuted by: `container_condense_counterexample`. |
| C29 | resize with a transaction manager survives a crash at any point | False for condense=False, transfer=True with two or more groups: the other groups are lost on disk (proved for all such containers). Refuted by: `container_resize_crash_counterexample`. |
| C30 | resize keeps the strict mode and refuses too small capacities | False of the code: resize never refuses a small capacity and always leaves the container non-strict (proved for every container); only the non-strict mode is kept. Refuted by: `container_resize_counterexample`. |
| C31 | A failing condense loses nothing | Without a transaction manager the id being moved is lost on failure (counterexample), all other ids keep their values; with a transaction manager nothing is lost. Refuted by: `container_condense_strict_counterexample`. |
| C33 | create never overwrites | Refusal to overwrite proved in full; storing a new id needs the primary group to be listed (true for databases made by the code, connection_primary_listed) and room. Refuted by: `connection_create_counterexample`. |
| C34 | update upserts and returns the previous object | Proved when the primary group comes first and objects are truthy; false otherwise. Refuted by: `connection_update_counterexample`. |
| C35 | Subscript access agrees with read | False for falsy objects. Refuted by: `connection_subscript_counterexample`. |
| C36 | With autocommit every successful call is durable and every failed call leaves no trace | Every single call proved in full incl. failing commits; histories proved while no commit fails; false after a failed commit. Refuted by: `connection_failed_commit_counterexample`. |
| C39 | Writes made with autocommit off are kept until committed or aborted by the user | Turning autocommit back on loses the pending calls at the next call (proved for every state). Refuted by: `connection_pending_counterexample`. |
| C40 | The autocommit option is honoured | The constructor option never reaches the manager. Refuted by: `connection_autocommit_option_counterexample`. |
| C42 | A new database has the requested capacity and strictness | Capacity proved; the strict argument is ignored (proved for all arguments). Refuted by: `database_create_strict_counterexample`. |
| C44 | Expanding a DbContainer keeps every object reachable | False of the code: expand_size does not rehash, ids whose slot changes are lost (counterexample); proved for ids whose slot stays. Refuted by: `dbcontainer_expand_counterexample`. |
| C45 | The legacy connection is a durable map | Proved with a CitrineTransactionManager; with the default manager every create, update and delete raises AttributeError (proved for every database). Refuted by: `legacy_default_manager_counterexample`. |
| C47 | A group read returns the first hit and reports duplicates | Duplicates and multiple=True misbehave (counterexamples proved). Refuted by: `group_read_duplicate_counterexample`, `group_read_multiple_counterexample`. |
| C48 | Creating or destroying a database module touches nothing else | create and the frame proved in full; delete also removes foreign files whose name begins with the module name (counterexamples). Refuted by: `delete_dbmodule_counterexample`, `delete_dbmodule_slash_counterexample`. |
| C51 | Setter validation accepts exactly the allowed values | Proved for every value; tuples and sets are accepted like lists but stored as lists, so the stored value is then not equal to the given one (counterexample). Refuted by: `setter_tuple_counterexample`. |
| C53 | Durations survive formatting | Proved for positive timedeltas; zero prints as "P" and negative ones with a stray minus sign (counterexamples). Refuted by: `timedelta_str_zero_counterexample`, `timedelta_str_negative_counterexample`. |
| C55 | URL validation | Exact characterisation of validate_url proved; false of the code: only the first host character is checked, and properties store invalid URLs because the result of the validator is ignored (both proved for all such strings). Refuted by: `url_host_counterexample`, `id_stores_any_counterexample`. |
| C56 | data() emits exactly the selected properties | Exact for arguments without name clashes, sound for all; with clashes one property is lost, with include_none a None becomes the text "None" (counterexamples). Refuted by: `data_clash_counterexample`, `data_none_counterexample`. |
| C57 | data() is JSON-serialisable | Proved for all value trees whose dictionaries have text keys; other keys are kept and booleans become texts (counterexamples). Refuted by: `data_keys_counterexample`, `data_bool_counterexample`. |
| C58 | Nested objects carry no context of their own and lose nothing else | First half proved; second half false: nested objects lose every property whose name is part of "acontext", in particular context (proved for every value). Refuted by: `nested_context_counterexample`. |
| C59 | The document cache is consistent | Caching proved for all histories and network behaviours; the part about secure loaders is false when an insecure loader has cached the url (proved for every url). Refuted by: `secure_cache_counterexample`. |
| C60 | from_json builds the object of the declared type from declared properties only | Exact characterisation for all documents, registries, expand results and constructors. False in part: an unknown type without default class raises AttributeError at the top and is silently None when nested. That the dictionary of the caller is not modified is Mem.document_unchanged, on the model with references, which Mem.same_result connects to the tree model. |
| C61 | Class registration is unique | Proved for all sequences of registrations in any number of engines; the back-reference of a class to its engine is wrong if a class is registered in two engines. Refuted by: `backref_counterexample`. |
| C62 | Packages can be combined and subtracted | False: all six operations raise for all arguments (proved); the class lists computed on the way are right, the property list of a difference is always empty. |
| C64 | Property linking is exact | Linking is exact for all mappings; listing a class that is no property raises AttributeError instead of ValueError. |
| C65 | Class cloning visits every class once, parents first, and terminates | Termination, order and single cloning are proved for every hierarchy accepted by Python (C3 is modelled); creation of a clone can fail (TypeError) when a class between two packaged ones is left out, and one-shot iterators lose all classes but the first (counterexamples). Success and the exact mro are proved when the packaged classes come first in their mros. |
| C66 | Changing an object's class loses no property value | False of the code in general: values of read-only properties and values whose setter raises AttributeError are lost silently, and a refused value leaves a half-changed object (counterexamples). Proved: everything else is kept, for every class hierarchy and for all ActivityStreams classes. |
| C67 | Links reduce to their href | False for lists in lists (their Links are not reduced), and reducing twice differs if a Link has a Link as its href (counterexamples); everything else proved for all values. Refuted by: `hrefOnly_idem_counterexample`, `href_nested_counterexample`. |
| C69 | totalItems is consistent | Non-negativity holds on packaged objects after every history; the number is right for new unpackaged collections; packaged collections lose their items (totalItems 0), unpackaged ones accept negative numbers, later assignments of items are not counted, the characters of a single string are. |
| C71 | Property setters and getters agree | Holds for all properties but hreflang, whose getter reads an attribute its setter does not write; strings may be stored as Links or datetimes, tuples as lists (StoredFor). |
| C72 | get_primes lists the primes of a range | Without a maximum exactly the primes (and 0, 1) from min on are yielded in order; with a maximum nothing is yielded when min <= max (the test is reversed: counterexample). Refuted by: `getPrimes_max_counterexample`. |
| C73 | A failed commit is reported and leaves autocommit working | The call raises and the stored data is unchanged (connection_autocommit_call); later calls are not durable (proved for every state) until the program assigns autocommit = True or uses a block, after which everything is durable again (proved). Refuted by: `connection_failed_commit_counterexample`. |
| C74 | Setting strict on a connection is durable | False for every state: the assignment is never stored while autocommit is on; inside a block it is stored and stays (proved). Refuted by: `connection_strict_counterexample`. |
| C75 | Creating a database never silently discards an existing one | False of the code for every existing database: the container is replaced by an empty one; only the other root entries are kept. Refuted by: `database_create_counterexample`. |
| C76 | A crash while creating or first opening a database leaves it openable | Proved for storages that have a root object; false for new storages. Refuted by: `database_create_crash_counterexample`. |
| C77 | A created database module is usable and discoverable | False of the code: DbModule.create raises ImportError for every free name (generated __init__ imports a name that does not exist), so DbGroup.create_dbmodule never succeeds. Refuted by: `module_create_counterexample`, `group_create_counterexample`. |
| C78 | Destroying a module removes it from the group; a module's path is fixed | The module stays listed in the group (proved for every group), and the empty name deletes every file of the directory. Refuted by: `group_destroy_counterexample`, `group_destroy_empty_counterexample`. |
| C79 | Properties for Objects accept Objects | Nine properties refuse Objects because properties.py rebinds the name Object. |
| C80 | Constructor arguments are kept | All arguments but type, items, totalItems, startIndex and hreflang are kept, for every class; the exceptions are described exactly. |
| C81 | Every type of the vocabulary can be loaded | False of the code for Object and Link: linking the property `type` to them overwrites the class attribute their namespace is made from, so their documents raise AttributeError (top) or become None (nested). Proved for the other classes. |
| C82 | Reading does not change the vocabulary | False of the code (counterexample reading_forgets_types); proved exactly which namespaces and types change, for every history of reads. |
| C83 | The property list of a class does not depend on the history | False of the code without refresh: a cache of an ancestor is inherited (counterexample). Proved with refresh, and without it if no ancestor was asked before. |
| C84 | A packaged class behaves like its original | False when a class that is not packaged overrides an attribute of a packaged ancestor (counterexample); proved for every other hierarchy without redundant bases. |
| C87 | Loading keeps the document | False of the code: items (and other item lists) of collections, hreflang and id of Mentions, formerType of Tombstones, and context are lost; totalItems/startIndex become 0 instead of None. The theorem says exactly what is kept for every class and property. |
| C88 | Writing and loading gives the object back | Proved for every object whose values are of the kinds listed in ComesBack (texts, numbers, lists, naive datetimes of whole seconds, bare Links, nested objects to any depth). False for the others: counterexamples for deleted, closed, duration and Links with more than an address. |
| C101 | Committed blocks are serializable | False in general (write skew); true for blocks each of whose ids was changed by the block or not changed by others. Refuted by: `write_skew_counterexample`. |
| C102 | Reads see the calls other sessions have finished | False; what holds instead (others_invisible): nothing that other sessions do changes what a session reads between its own moves. Refuted by: `stale_read_counterexample`. |
| C103 | A write that returns is not lost by a concurrent resize | False, for every id, object and size; proved for transactions that do not overlap, with any number of resizes. Refuted by: `resize_loses_write_counterexample`. |
| C104 | Strict limits hold among concurrent sessions | False: a concrete schedule of two sessions that both succeed; proved for transactions that do not overlap. By how much the limits can be exceeded: C158. Refuted by: `strict_limit_counterexample`. |
| C105 | Threads do not disturb each other's property contexts | What holds for every schedule, what holds if switches are not interrupted, and schedules in which the rest fails. Refuted by: `context_stuck_counterexample`, `context_lost_counterexample`, `outsider_sees_json_counterexample`, `locked_contexts_counterexample`. |
| C106 | The document cache can be shared by threads | All but the last sentence, for every schedule; the last sentence is false (counterexample). Refuted by: `cache_twice_counterexample`. |
| C108 | Strict mode only adds refusals | Collections: all histories. Groups and containers: all histories in which no update, condense or resize was refused half-way; with one the statement is false (counterexamples). Refuted by: `group_strict_history_counterexample`, `container_strict_history_counterexample`. |
| C113 | A with-db block has its own open connection | Proved for blocks of one database object that do not overlap; false when they overlap (counterexample). Refuted by: `with_db_counterexample`. |
| C114 | A connection from the pool is as good as new | All behaviour proved the same; only the reported autocommit flag differs (counterexample). Refuted by: `reopened_flag_counterexample`. |
| C115 | Membership, iteration and addition of containers | False of the code: the methods are empty. Refuted by: `container_stubs_counterexample`. |
| C116 | A database opens from every kind of storage the docs allow | Exactly which arguments work is proved; existing paths, None, new storage objects other than FileStorage, and databases= never do. Refuted by: `open_path_counterexample`, `open_memory_counterexample`, `open_new_object_counterexample`, `open_databases_counterexample`. |
| C117 | setup makes what is missing and keeps what is there | Proved for CitrineConnection in a session without uncommitted changes; ManagedConnection.setup raises TypeError for every database without container. Refuted by: `citrine_setup_pending_counterexample`, `managed_setup_counterexample`. |
| C118 | A GroupReadConnection opens every database with its own arguments | All but the transaction manager. Refuted by: `group_connect_counterexample`. |
| C119 | A ManagedGroupDB can be made and keeps its registry in line with its modules | False of the code; only making one under a free name of its own works. Refuted by: `managed_default_counterexample`, `managed_operations_counterexample`. |
| C121 | Objects that refer to each other can be written | Exact condition proved: RecursionError iff something written is nested deeper than the limit; for some limit data returns iff nothing written contains itself. False as stated for cyclic and very deep graphs (counterexamples). Refuted by: `data_self_counterexample`, `data_mutual_counterexample`, `data_chain_counterexample`. |
| C122 | obj[...] and iteration give the values of properties | Proved for texts, lists and tuples of names and for iteration; iterators give an empty dictionary, keys that are no texts a TypeError (counterexamples). Refuted by: `item_iterator_counterexample`, `item_type_counterexample`. |
| C123 | transforms are applied | False of the code for every dictionary of functions; what is left is that the argument does no harm. Refuted by: `transforms_counterexample`. |
| C124 | Links can be changed after construction | Attributes proved for all histories; what data() writes is right exactly if the names of the class did not change since its last refresh (iff proved, with counterexamples). Refuted by: `link_counterexample`, `unlink_counterexample`. |
| C125 | Property objects answer hasattr and getattr with a default | False of the code: every missing attribute raises ValueError. Refuted by: `property_object_counterexample`. |
| C127 | An object built with a package can be stored in a Citrine database | False for objects in which a packaged class occurs: its name leads to the original class, so pickle refuses it, the call raises and the session is left with a failed transaction, and a with block loses everything done in it. Proved: exactly the objects all of whose classes are found under their names can be stored, they load as they were, and histories that store only such objects go as if nothing were pickled. Refuted by: `packaged_call_counterexample`, `packaged_block_counterexample`. |
| C128 | Changing an object that was read changes nothing stored until update is called | False: changes of an object in the database are written with the next change of a neighbour in its record, or silently lost, survive abort, and make update return the new contents as the previous ones (stray_change_stored, stray_change_unstored, abort_keeps_change, update_previous). Proved: while no object in the database is changed, every history is one of the transactional map of C93 with contents as they were when given; and without a call about an id of a record its stored contents never change. ZODB records are modelled with a fixed assignment of ids. |
| C130 | Threads can share a connection | Holds for threads that take turns, each turn a whole call or a whole with block (turns_partial, with failing commits and crashes). False otherwise: the transaction is per thread but the connection joins only the transaction of the thread that changed it first, so calls that returned are lost, uncommitted changes are read and aborted blocks are stored; the autocommit property is shared while autocommit is per thread. Interleavings inside one call are not modelled. Refuted by: `returned_call_lost_counterexample`, `dirty_read_counterexample`, `aborted_block_stored_counterexample`, `autocommit_flag_counterexample`. |
| C136 | Programs with with-blocks do what they say, also with blocks inside blocks | Proved for all programs without blocks inside blocks in which the storage refuses no commit of a single call (those of blocks may be refused; C73). With blocks inside blocks the claim is false (counterexample for all ids and objects); proved instead what is stored then, for all inner and later programs. Refuted by: `nested_block_counterexample`. |
| C138 | The walk of the README | Proved for items that are written out in the page, with any classes that have these properties and any position; and what happens without the page. For items given as addresses the claim is false: proved that the expression raises AttributeError for all of them, whatever is at the address. Refuted by: `readme_addresses_counterexample`. |
| C139 | Headers and result of jsonld_get | Each header the caller names once is sent with the value given, all others as by default; a header written in two cases is not sent as requests alone would send it, and the status of the response is never looked at. Refuted by: `caller_headers_counterexample`, `get_status_counterexample`. |
| C140 | The text of an object is JSON and reads back | loads is exactly the RFC 8259 grammar plus the three names NaN, Infinity and -Infinity, which dumps writes for floats that are no numbers; two keys that are written alike collide; the round trip has the limits of C88. The recursion limit and halves of surrogate pairs are not modelled. Refuted by: `dumps_json_counterexample`, `json_keys_counterexample`. |
| C141 | The examples of the README, as texts | New objects in full; loading gives class, id and type when it gives anything (C81 has what is lost); the walk has the limits of C138. The order of the properties in a text is not modelled. |
| C142 | The JSON of a new object shows what its constructor was given | All values of the named shapes; false of the code for the property context (never written) and for the properties that constructors lose (C80), not_shown_counterexample. Refuted by: `not_shown_counterexample`. |
| C145 | stringify gives plain data, once and for all | All of stringify is proved. The last sentence is false: the entry named result converts the whole object and never looks at its result. The comment that every key and value becomes a string is false too: numbers stay numbers. Nothing in the repository calls this code; values that contain themselves are not modelled. The table lacks 15 properties of the vocabulary (transform_vocabulary_counterexample), and its entry hrefLang names none. Refuted by: `stringify_numbers_counterexample`, `stringify_merges_counterexample`, `stringify_tuple_key_counterexample`, `transform_result_counterexample`, `transform_vocabulary_counterexample`. |
| C146 | Reorganising with a transaction manager commits one action at a time | The counts hold for every pattern of effective commits. The last sentence is proved for a manager that stores at every commit; it is false for a manager whose transaction object does nothing after its first commit (library behaviour, not in the repository; the transaction package is believed to be such a manager): then the first object is stored alone and all others together (one_by_one_counterexample). Missing also: condense of a container whose primary group is not first. Refuted by: `one_by_one_counterexample`. |
| C147 | A module tells its size, and asking changes nothing | Proved: asking changes nothing stored or seen and leaves no connection open, after every history; a record shows path, name and the size of the last update that gave one. False of the code: a ContainerConnection has no attribute size, so module.size, sizes of groups and records made from modules always raise AttributeError; inside a with-db block of the same database the block does not close its connection any more. That ZODB.Connection has no attribute size either is a library assumption. Refuted by: `module_size_counterexample`, `module_size_in_block_counterexample`. |
| C148 | Reorganising with a transaction manager while other sessions work | Proved for all histories of calls of other sessions between the transactions, with transfer or without deletions by the others. False of the code: a deletion by another session makes condense(transfer=True) raise KeyError, and with transfer=False brings the deleted id back with None as its object. Calls that overlap a commit are C103. Refuted by: `condense_amid_delete_counterexample`, `condense_amid_none_counterexample`. |
<!-- end findings -->
