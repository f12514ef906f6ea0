import Verif.Jsonld.Context
import Verif.Jsonld.Docloader

/-!
# Threads on one object's contexts, and on the shared document cache

jsonld/base.py:203-225 and jsonld/docloader.py:128-144 use no locks.  Threads are interleaved between the reads and writes of shared
attributes, each of which is one step (as in CPython).
-/
namespace Verif.Jsonld

/-! ### `with obj.switch_context(c): ...` -/

/-- Where a thread is in `with obj.switch_context(c):` (blocks of one thread are not nested here). (jsonld/base.py:214-225, 332-334) -/
inductive Phase where
  | outside
  /-- 215: `self.context` has been read -/
  | entering (want saved : Ctx)
  /-- 215: appended -/
  | pushed (want : Ctx)
  /-- 216: `self.context` is set, the body runs -/
  | inside (want : Ctx)
  /-- 224: the stack was not empty -/
  | leaving
  /-- 224: the stack was empty -/
  | leavingEmpty
  /-- 224: `pop` has returned this -/
  | popped (saved : Ctx)
  /-- 224: `pop` has raised IndexError -/
  | raised
  deriving DecidableEq

/-- What a thread does next: call `switch_context(c)`, go on, access a property, end the block. (jsonld/base.py:214-225) -/
inductive Do where
  | enter (c : Ctx)
  | step
  | look
  | leave
  deriving DecidableEq

/-- The manager of one object, the threads, and the property accesses made so far, latest first: thread, the context of its block
(`none`: outside of its blocks) and the context the access saw. (jsonld/base.py:203-225; 50-53) -/
structure Threads where
  context : Ctx
  stack : List Ctx
  phase : Nat → Phase := fun _ => .outside
  log : List (Nat × Option Ctx × Ctx) := []

namespace Threads

/-- The thread goes on to a phase. (jsonld/base.py:214-225) -/
def goto (s : Threads) (i : Nat) (p : Phase) : Threads := { s with phase := Function.update s.phase i p }

/-- jsonld/base.py:224, second half: pop. -/
def pop (s : Threads) (i : Nat) : Threads :=
  match s.stack with
  | [] => s.goto i .raised
  | x :: rest => { s with stack := rest }.goto i (.popped x)

/-- One step of thread `i`; steps that are not possible where it is do nothing. (jsonld/base.py:214-225; property accesses: 50-53) -/
def act (s : Threads) (i : Nat) (d : Do) : Threads :=
  match s.phase i, d with
  | .outside, .enter c => s.goto i (.entering c s.context)
  | .entering w saved, .step => { s with stack := saved :: s.stack }.goto i (.pushed w)
  | .pushed w, .step => { s with context := w }.goto i (.inside w)
  | .inside w, .look => { s with log := (i, some w, s.context) :: s.log }
  | .outside, .look => { s with log := (i, none, s.context) :: s.log }
  | .inside _, .leave => s.goto i (if s.stack = [] then .leavingEmpty else .leaving)
  | .leaving, .step => s.pop i
  | .leavingEmpty, .step => { s with context := none }.goto i .outside
  | .popped x, .step => { s with context := x }.goto i .outside
  | _, _ => s

/-- A schedule. (threads using jsonld/base.py:203-225) -/
def acts (s : Threads) : List (Nat × Do) → Threads
  | [] => s
  | (i, d) :: rest => (s.act i d).acts rest

end Threads

/-! ### The document cache -/

variable {J : Type}

/-- Where a thread is in `CachedRequestsJsonLoader.__call__`: 136 the url was not in the cache; 138 the document is loaded and not yet
stored; 139 the url is in the cache. (jsonld/docloader.py:134-139) -/
inductive CachePc (J : Type) where
  | idle
  | missing (secure : Bool) (url : String)
  | loaded (url : String) (d : RemoteDoc J)
  | present (url : String)

/-- What a thread does next: call a loader, load the document (the network does `net` with the request), go on.
(jsonld/docloader.py:128-144) -/
inductive CacheDo (J : Type) where
  | call (secure : Bool) (url : String)
  | load (net : Outcome (Response J))
  | step

/-- An event: a document of a url was loaded (by `get`), or a call for a url returned or raised. (jsonld/docloader.py:128-144) -/
inductive CacheEvent (J : Type) where
  | called (who : Nat) (url : String)
  | got (who : Nat) (url : String) (d : RemoteDoc J)
  | returned (who : Nat) (url : String) (r : Outcome (Option (RemoteDoc J)))

/-- The cache of the class, the threads, and what has happened so far, latest first. (jsonld/docloader.py:120-144) -/
structure CacheThreads (J : Type) where
  cache : PyDict String (RemoteDoc J) := []
  pc : Nat → CachePc J := fun _ => .idle
  log : List (CacheEvent J) := []

namespace CacheThreads

/-- A thread goes on. (jsonld/docloader.py:134-139) -/
def goto (s : CacheThreads J) (i : Nat) (p : CachePc J) (es : List (CacheEvent J)) : CacheThreads J :=
  { s with pc := Function.update s.pc i p, log := es ++ s.log }

/-- One step of thread `i`; impossible steps do nothing. (jsonld/docloader.py:134-144) -/
def act (bracketOk : List Char → Bool) (lt : LinkTools) (s : CacheThreads J) (i : Nat) (d : CacheDo J) : CacheThreads J :=
  match s.pc i, d with
  | .idle, .call secure url => s.goto i (if s.cache.dget url = none then .missing secure url else .present url) [.called i url]
  | .missing secure url, .load net =>
    match (loaderGet bracketOk lt secure url net).1 with
    | .ok doc => s.goto i (.loaded url doc) [.got i url doc]
    | .error _ => s.goto i .idle [.returned i url (.error .jsonLd)]
  | .loaded url doc, .step => { s with cache := s.cache.dset url doc }.goto i (.present url) []
  | .present url, .step => s.goto i .idle [.returned i url (.ok (s.cache.dget url))]
  | _, _ => s

/-- A schedule. (threads using jsonld/docloader.py:128-144) -/
def acts (bracketOk : List Char → Bool) (lt : LinkTools) (s : CacheThreads J) : List (Nat × CacheDo J) → CacheThreads J
  | [] => s
  | (i, d) :: rest => (s.act bracketOk lt i d).acts bracketOk lt rest

end CacheThreads
end Verif.Jsonld
