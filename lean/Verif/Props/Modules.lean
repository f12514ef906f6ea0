import Verif.Db.Modules

/-!
# Database modules on disk (C48, C77, C78)
-/
namespace Verif.Props
open Verif Verif.Db

/-- The files that belong to a database module: its `__init__.py` and the files ZODB keeps
beside the database file. -/
def ownFiles (name : String) : List String :=
  ["__init__.py", name, name ++ ".index", name ++ ".lock", name ++ ".tmp", name ++ ".old"]

/-- Nothing but the entry `name` of the directory differs. -/
def OnlyChanges (root root' : Root.Dir) (name : String) : Prop :=
  ∀ x, x ≠ name → root'.dget x = root.dget x

/-- The name a module gets. -/
def chosenName (fresh : String) : Option String → String
  | none => fresh
  | some n => if n = "" then fresh else n

/-- **C48, creation.** `create_dbmodule` on an existing path raises, with or without
`overwrite`, and changes nothing; otherwise it adds one directory with one `__init__.py`
and touches nothing else. -/
theorem create_dbmodule_spec (root : Root.Dir) (fresh : String) (name : Option String) (disc overwrite : Bool) :
    let r := createDbmodule root fresh name disc overwrite
    let n := chosenName fresh name
    (root.dget n ≠ none → (∃ e, r.1 = .error e) ∧ r.2 = root) ∧
    (root.dget n = none → r.1 = .ok n ∧
      r.2.dget n = some (.dir [("__init__.py", .file (.init disc))]) ∧ OnlyChanges root r.2 n) := by
  intro r n
  have hr : r = match root.dget n with
      | some _ => if overwrite then (.error .fileExists, root) else (.error .ioError, root)
      | none => (.ok n, root.dset n (.dir [("__init__.py", .file (.init disc))])) := by
    cases name <;> rfl
  rw [hr]
  constructor
  · intro h
    obtain ⟨e, he⟩ := Option.ne_none_iff_exists'.1 h
    rw [he]
    cases overwrite <;> exact ⟨⟨_, rfl⟩, rfl⟩
  · intro h
    rw [h]
    refine ⟨rfl, ?_, ?_⟩
    · show List.dget _ n = _
      rw [PyDict.dget_dset, if_pos rfl]
    · intro x hx
      show List.dget _ x = _
      rw [PyDict.dget_dset, if_neg hx]

theorem removeAll_ok (fs : List (String × SubEntry)) : ∀ (d d' : PyDict String SubEntry), d.WF →
    removeAll fs d = (.ok (), d') →
    d'.WF ∧ ∀ x, d'.dget x = if x ∈ fs.map Prod.fst then none else d.dget x := by
  induction fs with
  | nil => intro d d' hd h; simp only [removeAll, Prod.mk.injEq, true_and] at h; subst h; exact ⟨hd, by simp⟩
  | cons p fs ih =>
    intro d d' hd h
    obtain ⟨f, e⟩ := p
    cases e with
    | dir _ => simp [removeAll] at h
    | file c =>
      obtain ⟨h1, h2⟩ := ih _ _ (PyDict.wf_ddel hd f) h
      refine ⟨h1, fun x => ?_⟩
      rw [h2, PyDict.dget_ddel hd]
      by_cases hx : x = f
      · subst hx; simp
      · rw [if_neg hx]
        have : (x ∈ List.map Prod.fst ((f, SubEntry.file c) :: fs)) ↔ x ∈ fs.map Prod.fst := by
          simp only [List.map_cons, List.mem_cons, hx, false_or]
        simp only [this]

theorem removeAll_error (fs : List (String × SubEntry)) : ∀ (d d' : PyDict String SubEntry) (e : PyErr), d.WF →
    removeAll fs d = (.error e, d') →
    (∃ p ∈ fs, ∃ r, p.2 = .dir r) ∧ d'.WF ∧ ∀ x, x ∉ fs.map Prod.fst → d'.dget x = d.dget x := by
  induction fs with
  | nil => intro d d' e _ h; simp [removeAll] at h
  | cons p fs ih =>
    intro d d' e hd h
    obtain ⟨f, s⟩ := p
    cases s with
    | dir r =>
      simp only [removeAll, Prod.mk.injEq] at h
      obtain ⟨_, h⟩ := h; subst h
      exact ⟨⟨_, List.mem_cons_self, r, rfl⟩, hd, fun _ _ => rfl⟩
    | file c =>
      obtain ⟨⟨q, hq, hr⟩, h1, h2⟩ := ih _ _ e (PyDict.wf_ddel hd f) h
      refine ⟨⟨q, List.mem_cons_of_mem _ hq, hr⟩, h1, fun x hx => ?_⟩
      simp only [List.map_cons, List.mem_cons, not_or] at hx
      rw [h2 x hx.2, PyDict.dget_ddel hd, if_neg hx.1]

/-- Is the entry deleted by `delete_dbmodule`?  A file whose name begins with the module's
name, or `__init__.py`. -/
def Deleted (name : String) (p : String × SubEntry) : Prop :=
  ((∃ c, p.2 = .file c) ∧ name.toList <+: p.1.toList) ∨ p.1 = "__init__.py"

theorem isAffected_iff (name : String) (p : String × SubEntry) : isAffected name p = true ↔ Deleted name p := by
  unfold isAffected Deleted
  cases p.2 <;> simp

/-- **C48, deletion (partial: exact behaviour).** `delete_dbmodule` on a module directory (path
without trailing separator) never touches anything outside that directory; in it, it removes
exactly the files whose name begins with the module's name and `__init__.py`, keeps every
other entry, and removes the directory itself exactly when nothing is left and
`remove_empty` is set. With `remove_all` the directory disappears, nothing else does. -/
theorem delete_dbmodule_partial (root : Root.Dir) (hroot : root.WF) (name : String)
    (d : PyDict String SubEntry) (hd : d.WF) (hdir : root.dget name = some (.dir d))
    (hinit : ∀ r, d.dget "__init__.py" ≠ some (.dir r)) (removeEmpty : Bool) :
    let r := deleteDbmodule root name removeEmpty
    r.1 = .ok () ∧ OnlyChanges root r.2 name ∧
    (∃ d', (∀ x s, d'.dget x = some s ↔ d.dget x = some s ∧ ¬ Deleted name (x, s)) ∧
      r.2.dget name = if removeEmpty ∧ d' = [] then none else some (.dir d')) ∧
    ((deleteDbmodule root name removeEmpty true).1 = .ok () ∧
      (deleteDbmodule root name removeEmpty true).2.dget name = none ∧
      OnlyChanges root (deleteDbmodule root name removeEmpty true).2 name) := by
  intro r
  rcases hrm : removeAll (d.filter (isAffected name)) d with ⟨res, d'⟩
  have hok : res = .ok () := by
    cases res with
    | ok _ => rfl
    | error e =>
      obtain ⟨⟨p, hp, x, hx⟩, _⟩ := removeAll_error _ d d' e hd hrm
      obtain ⟨hp1, hp2⟩ := List.mem_filter.1 hp
      rw [isAffected_iff] at hp2
      rcases hp2 with ⟨⟨c, hc⟩, _⟩ | hn
      · rw [hx] at hc; simp at hc
      · obtain ⟨a, b⟩ := p
        simp only at hx hn
        subst hx hn
        exact absurd (PyDict.dget_of_mem hd hp1) (hinit x)
  subst hok
  obtain ⟨hw', hg'⟩ := removeAll_ok _ d d' hd hrm
  have hr : r = if removeEmpty && d'.isEmpty then (.ok (), root.ddel name) else (.ok (), root.dset name (.dir d')) := by
    show deleteDbmodule root name removeEmpty = _
    unfold deleteDbmodule
    rw [hdir]
    simp only [Bool.false_eq_true, if_false, hrm]
  have hspec : ∀ x s, d'.dget x = some s ↔ d.dget x = some s ∧ ¬ Deleted name (x, s) := by
    intro x s
    rw [hg']
    constructor
    · intro h
      split_ifs at h with hm
      refine ⟨h, fun hdel => hm ?_⟩
      exact List.mem_map.2 ⟨(x, s), List.mem_filter.2 ⟨PyDict.dget_mem h, (isAffected_iff _ _).2 hdel⟩, rfl⟩
    · rintro ⟨h1, h2⟩
      rw [if_neg, h1]
      intro hm
      obtain ⟨⟨a, b⟩, hp, rfl⟩ := List.mem_map.1 hm
      obtain ⟨hp1, hp2⟩ := List.mem_filter.1 hp
      have := PyDict.dget_of_mem hd hp1
      simp only at h1
      rw [this] at h1; injection h1 with h1; subst h1
      exact h2 ((isAffected_iff _ _).1 hp2)
  refine ⟨?_, ?_, ⟨d', hspec, ?_⟩, ?_⟩
  · rw [hr]; split_ifs <;> rfl
  · intro x hx
    rw [hr]
    split_ifs
    · show List.dget _ x = _
      rw [PyDict.dget_ddel hroot, if_neg hx]
    · show List.dget _ x = _
      rw [PyDict.dget_dset, if_neg hx]
  · rw [hr]
    by_cases hc : removeEmpty = true ∧ d' = []
    · rw [if_pos (by simp [hc.1, hc.2]), if_pos hc]
      show List.dget _ name = _
      rw [PyDict.dget_ddel hroot, if_pos rfl]
    · rw [if_neg (by simpa using hc), if_neg hc]
      show List.dget _ name = _
      rw [PyDict.dget_dset, if_pos rfl]
  · have : deleteDbmodule root name removeEmpty true = (.ok (), root.ddel name) := by
      unfold deleteDbmodule; rw [hdir]; rfl
    rw [this]
    refine ⟨rfl, ?_, fun x hx => ?_⟩
    · show List.dget _ name = _
      rw [PyDict.dget_ddel hroot, if_pos rfl]
    · show List.dget _ x = _
      rw [PyDict.dget_ddel hroot, if_neg hx]

/-- C48: whatever happens, also when deleting fails, nothing outside the module's own directory
is touched. -/
theorem delete_dbmodule_frame (root : Root.Dir) (hroot : root.WF) (name : String) (a b c : Bool) :
    OnlyChanges root (deleteDbmodule root name a b c).2 name := by
  intro x hx
  unfold deleteDbmodule
  have h1 : (root.ddel name).dget x = root.dget x := by rw [PyDict.dget_ddel hroot, if_neg hx]
  have h2 : ∀ e, (root.dset name e).dget x = root.dget x := fun e => by rw [PyDict.dget_dset, if_neg hx]
  split
  · rfl
  · rfl
  · generalize (if c = true then "" else name) = nm
    by_cases hb : b = true
    · rw [if_pos hb]; exact h1
    · rw [if_neg hb]
      split
      · exact h2 _
      · split_ifs
        · exact h1
        · exact h2 _

/-- A module with two user files in its directory. -/
def exampleRoot : Root.Dir :=
  [("a", .dir [("__init__.py", .file (.init true)), ("a", .file (.other "db")), ("apple.txt", .file (.other "mine")),
    ("notes.txt", .file (.other "mine"))]), ("b", .file (.other "other"))]

/-- **C48 (counterexample).** Deleting module "a" also deletes the user's file "apple.txt",
which is not one of the module's files; "notes.txt" stays. -/
theorem delete_dbmodule_counterexample :
    "apple.txt" ∉ ownFiles "a" ∧ (deleteDbmodule exampleRoot "a").1 = .ok () ∧
    (deleteDbmodule exampleRoot "a").2.dget "a" = some (.dir [("notes.txt", .file (.other "mine"))]) ∧
    (deleteDbmodule exampleRoot "a").2.dget "b" = some (.file (.other "other")) := by decide +kernel

/-- **C48 (counterexample).** With a trailing separator in the path every file of the
directory is deleted, and then the directory. -/
theorem delete_dbmodule_slash_counterexample (root : Root.Dir) (hroot : root.WF) (name : String)
    (d : PyDict String SubEntry) (hd : d.WF) (hdir : root.dget name = some (.dir d))
    (hfiles : ∀ x r, d.dget x ≠ some (.dir r)) :
    (deleteDbmodule root name (trailingSlash := true)).1 = .ok () ∧
    (deleteDbmodule root name (trailingSlash := true)).2.dget name = none := by
  have hall : d.filter (isAffected "") = d := by
    rw [List.filter_eq_self]
    rintro ⟨x, s⟩ hp
    cases s with
    | file c => simp [isAffected]
    | dir r => exact absurd (PyDict.dget_of_mem hd hp) (hfiles x r)
  rcases hrm : removeAll d d with ⟨res, d'⟩
  have hok : res = .ok () := by
    cases res with
    | ok _ => rfl
    | error e =>
      obtain ⟨⟨⟨x, s⟩, hp, r, hx⟩, _⟩ := removeAll_error _ d d' e hd hrm
      simp only at hx; subst hx
      exact absurd (PyDict.dget_of_mem hd hp) (hfiles x r)
  subst hok
  obtain ⟨hw', hg'⟩ := removeAll_ok _ d d' hd hrm
  have hnil : d' = [] := by
    cases d' with
    | nil => rfl
    | cons p d' =>
      have h1 := hg' p.1
      have : List.dget (p :: d') p.1 = some p.2 := by obtain ⟨a, b⟩ := p; simp [List.dget]
      rw [this] at h1
      split_ifs at h1 with hm
      exact absurd ((PyDict.dget_ne_none (d := d) (k := p.1)).1 (by rw [← h1]; simp)) hm
  have : deleteDbmodule root name (trailingSlash := true) = (.ok (), root.ddel name) := by
    unfold deleteDbmodule
    rw [hdir]
    simp only [Bool.false_eq_true, if_false, if_true, hall, hrm, hnil]
    rfl
  rw [this]
  refine ⟨rfl, ?_⟩
  show List.dget _ name = _
  rw [PyDict.dget_ddel hroot, if_pos rfl]

/-- Non-vacuity of the two theorems above. -/
example : ∃ d, exampleRoot.dget "a" = some (.dir d) ∧ d.WF ∧ exampleRoot.WF ∧
    (∀ r, d.dget "__init__.py" ≠ some (.dir r)) ∧ d.length = 4 := by
  refine ⟨_, rfl, by simp only [List.WF]; decide, by simp only [List.WF]; decide, ?_, rfl⟩
  intro r h
  simp [List.dget] at h

/-! ### C77 -/

/-- **C77 (counterexample).** `DbModule.create(root, name)` for a free name always raises
ImportError and leaves the new directory behind; the module is never discovered; and the
`overwrite` argument ends up in the generated file as its `discoverable` flag. -/
theorem module_create_counterexample (run : String → Outcome Executed) (root : Root.Dir) (fresh : String)
    (name : Option String) (overwrite : Bool) (hfree : root.dget (chosenName fresh name) = none) :
    let r := moduleCreate run root fresh name overwrite
    r.1 = .error .importError ∧
    r.2.dget (chosenName fresh name) = some (.dir [("__init__.py", .file (.init overwrite))]) ∧
    chosenName fresh name ∉ findDbmodules run r.2 := by
  intro r
  obtain ⟨h1, h2, _⟩ := (create_dbmodule_spec root fresh name overwrite false).2 hfree
  rcases hc : createDbmodule root fresh name overwrite with ⟨res, root'⟩
  rw [hc] at h1 h2
  simp only at h1 h2
  have hr : r = (openModule run root' (chosenName fresh name), root') := by
    show moduleCreate run root fresh name overwrite = _
    unfold moduleCreate; rw [hc, h1]
  have hi : initOf root' (chosenName fresh name) = some (.init overwrite) := by
    unfold initOf; rw [h2]; rfl
  rw [hr]
  refine ⟨?_, h2, ?_⟩
  · show openModule run root' _ = _
    unfold openModule; rw [h2]; rfl
  · intro hm
    have := (List.mem_filter.1 hm).2
    unfold isPathDbmodule at this
    rw [hi] at this
    simp [execInit] at this

/-- C77: discovery finds exactly the directories whose `__init__.py` runs and sets DB_MODULE. -/
theorem find_dbmodules_spec (run : String → Outcome Executed) (root : Root.Dir) (name : String) :
    name ∈ findDbmodules run root ↔
      ∃ d c text m, root.dget name = some (.dir d) ∧ d.dget "__init__.py" = some (.file c) ∧
        c = .other text ∧ run text = .ok m ∧ m.flag = true := by
  unfold findDbmodules
  rw [List.mem_filter, List.mem_filter]
  constructor
  · rintro ⟨⟨_, h2⟩, h3⟩
    unfold isPathDbmodule initOf at h3
    cases hr : root.dget name with
    | none => rw [hr] at h2; simp at h2
    | some e =>
      cases e with
      | file c => rw [hr] at h2; simp at h2
      | dir d =>
        rw [hr] at h3
        simp only at h3
        cases hi : d.dget "__init__.py" with
        | none => rw [hi] at h3; simp at h3
        | some s =>
          cases s with
          | dir r => rw [hi] at h3; simp at h3
          | file c =>
            rw [hi] at h3
            simp only at h3
            cases c with
            | init b => simp [execInit] at h3
            | other text =>
              simp only [execInit] at h3
              cases ht : run text with
              | error e => rw [ht] at h3; simp at h3
              | ok p =>
                rw [ht] at h3
                simp only at h3
                exact ⟨d, _, text, p, rfl, hi, rfl, ht, h3⟩
  · rintro ⟨d, c, text, n, h1, h2, rfl, h4, h5⟩
    refine ⟨⟨PyDict.dget_ne_none.1 (by rw [h1]; simp), ?_⟩, ?_⟩
    · simp [h1, h2]
    · simp [isPathDbmodule, initOf, h1, h2, execInit, h4, h5]

/-- C77: `DbGroup.create_dbmodule` never succeeds, whatever the group, the name, the files and the options; the modules it lists stay as they
are. -/
theorem group_create_counterexample (run : String → Outcome Executed) (g : DbGroup) (fresh : String) (name : Option String)
    (overwrite : Bool) :
    (∃ e, (groupCreate run g fresh name overwrite).1 = .error e) ∧ (groupCreate run g fresh name overwrite).2.modules = g.modules := by
  have key : ∃ e, (moduleCreate run g.root fresh name overwrite).1 = .error e := by
    by_cases hfree : g.root.dget (chosenName fresh name) = none
    · exact ⟨_, (module_create_counterexample run g.root fresh name overwrite hfree).1⟩
    · obtain ⟨⟨e, he⟩, -⟩ := (create_dbmodule_spec g.root fresh name overwrite false).1 hfree
      rcases hc : createDbmodule g.root fresh name overwrite with ⟨res, root'⟩
      rw [hc] at he
      simp only at he
      exact ⟨e, by unfold moduleCreate; rw [hc, he]⟩
  obtain ⟨e, he⟩ := key
  unfold groupCreate
  rcases hm : moduleCreate run g.root fresh name overwrite with ⟨res, root'⟩
  rw [hm] at he
  simp only at he
  rw [he]
  exact ⟨⟨e, rfl⟩, rfl⟩

/-! ### C94 -/

/-- The directory `dir` holds a database module of the database `db`: its `__init__.py` runs and its `db()` gives that database. -/
def GivesDb (run : String → Outcome Executed) (root : Root.Dir) (dir db : String) : Prop :=
  ∃ d text m, root.dget dir = some (.dir d) ∧ d.dget "__init__.py" = some (.file (.other text)) ∧ run text = .ok m ∧ m.db = .ok db

theorem openModule_ok (run : String → Outcome Executed) (root : Root.Dir) (dir db : String) :
    openModule run root dir = .ok db ↔ GivesDb run root dir db := by
  unfold openModule GivesDb
  constructor
  · intro h
    cases hr : root.dget dir with
    | none => rw [hr] at h; cases h
    | some e =>
      cases e with
      | file c => rw [hr] at h; cases h
      | dir d =>
        rw [hr] at h
        simp only at h
        cases hi : d.dget "__init__.py" with
        | none => rw [hi] at h; cases h
        | some s =>
          cases s with
          | dir r => rw [hi] at h; cases h
          | file c =>
            rw [hi] at h
            cases c with
            | init b => simp [execInit] at h
            | other text =>
              simp only [execInit] at h
              cases ht : run text with
              | error e => rw [ht] at h; cases h
              | ok m => rw [ht] at h; exact ⟨d, text, m, rfl, hi, ht, h⟩
  · rintro ⟨d, text, m, h1, h2, h3, h4⟩
    simp [h1, h2, execInit, h3, h4]

/-- `dir` is the last directory of the list with a module of the database `db`. -/
def LastHolding (run : String → Outcome Executed) (root : Root.Dir) (dirs : List String) (dir db : String) : Prop :=
  ∃ before after, dirs = before ++ dir :: after ∧ GivesDb run root dir db ∧ ∀ m ∈ after, ¬ GivesDb run root m db

theorem discover_spec (run : String → Outcome Executed) (root : Root.Dir) (dirs : List String) :
    ((∃ d, discover run root dirs = .ok d) ↔ ∀ dir ∈ dirs, ∃ db, GivesDb run root dir db) ∧
    ∀ d, discover run root dirs = .ok d → d.WF ∧ ∀ db dir, d.dget db = some dir ↔ LastHolding run root dirs dir db := by
  induction dirs with
  | nil =>
    refine ⟨⟨fun _ _ h => by simp at h, fun _ => ⟨[], rfl⟩⟩, ?_⟩
    intro d hd
    cases Except.ok.inj hd
    refine ⟨PyDict.wf_nil, fun db dir => ⟨fun h => by simp [List.dget] at h, ?_⟩⟩
    rintro ⟨a, b, h, _⟩
    simp at h
  | cons n ns ih =>
    unfold discover
    cases ho : openModule run root n with
    | error e =>
      have hno : ¬ ∃ db, GivesDb run root n db := fun ⟨db, h⟩ => by
        rw [(openModule_ok run root n db).2 h] at ho; cases ho
      refine ⟨⟨fun ⟨d, h⟩ => (by simp at h), fun h => absurd (h n List.mem_cons_self) hno⟩, fun d h => (by simp at h)⟩
    | ok name =>
      have hn := (openModule_ok run root n name).1 ho
      have huniq : ∀ x, GivesDb run root n x → x = name := fun x hx => by
        have := (openModule_ok run root n x).2 hx
        rw [ho] at this; exact (Except.ok.inj this).symm
      cases hd : discover run root ns with
      | error e =>
        refine ⟨⟨fun ⟨d, h⟩ => (by simp at h), fun h => ?_⟩, fun d h => (by simp at h)⟩
        obtain ⟨d, hd'⟩ := ih.1.2 fun dir hdir => h dir (List.mem_cons_of_mem _ hdir)
        rw [hd] at hd'; cases hd'
      | ok d =>
        obtain ⟨hwf, hget⟩ := ih.2 d hd
        refine ⟨⟨fun _ dir hdir => ?_, fun _ => ⟨_, rfl⟩⟩, fun d' hd' => ?_⟩
        · rcases List.mem_cons.1 hdir with rfl | hdir
          · exact ⟨name, hn⟩
          · exact ih.1.1 ⟨d, hd⟩ dir hdir
        · cases Except.ok.inj hd'
          refine ⟨PyDict.wf_dmerge (by simp [List.WF, List.dkeys]) d, fun db dir => ?_⟩
          rw [PyDict.dget_dmerge _ d hwf]
          cases hx : d.dget db with
          | some y =>
            have hy := (hget db y).1 hx
            constructor
            · intro h
              obtain ⟨a, b, h1, h2, h3⟩ := (hget db dir).1 (by rw [hx]; exact h)
              exact ⟨n :: a, b, by rw [h1]; rfl, h2, h3⟩
            · rintro ⟨a, b, h1, h2, h3⟩
              cases a with
              | nil =>
                simp only [List.nil_append, List.cons.injEq] at h1
                obtain ⟨a', b', k1, k2, k3⟩ := hy
                exact absurd k2 (h3 y (by rw [← h1.2, k1]; simp))
              | cons z a =>
                simp only [List.cons_append, List.cons.injEq] at h1
                have := (hget db dir).2 ⟨a, b, h1.2, h2, h3⟩
                rw [hx] at this; exact this
          | none =>
            have hnone : ∀ m ∈ ns, ¬ GivesDb run root m db := by
              intro m hm hh
              have : ∃ z, LastHolding run root ns z db := by
                clear ih hd hget hx ho hn huniq
                induction ns generalizing m with
                | nil => simp at hm
                | cons w ns ihn =>
                  by_cases hw : ∃ m ∈ ns, GivesDb run root m db
                  · obtain ⟨m', hm', hh'⟩ := hw
                    obtain ⟨z, a, b, h1, h2, h3⟩ := ihn m' hm' hh'
                    exact ⟨z, w :: a, b, by rw [h1]; rfl, h2, h3⟩
                  · rcases List.mem_cons.1 hm with rfl | hm
                    · exact ⟨m, [], ns, rfl, hh, fun x hx hhx => hw ⟨x, hx, hhx⟩⟩
                    · exact absurd ⟨m, hm, hh⟩ hw
              obtain ⟨z, hz⟩ := this
              rw [(hget db z).2 hz] at hx; cases hx
            show (([(name, n)] : PyDict String String).dget db) = some dir ↔ _
            constructor
            · intro h
              have := PyDict.dget_mem h
              simp only [List.mem_singleton, Prod.mk.injEq] at this
              obtain ⟨rfl, rfl⟩ := this
              exact ⟨[], ns, rfl, hn, hnone⟩
            · rintro ⟨a, b, h1, h2, h3⟩
              cases a with
              | nil =>
                simp only [List.nil_append, List.cons.injEq] at h1
                rw [← h1.1] at h2 ⊢
                rw [huniq db h2]
                simp [List.dget]
              | cons z a =>
                simp only [List.cons_append, List.cons.injEq] at h1
                exact absurd h2 (hnone dir (by rw [h1.2]; simp))

/-- **C94.** `DbGroup(root)` raises exactly if a discoverable module (a directory whose `__init__.py` runs and sets DB_MODULE) does not give a
database; otherwise it lists, under the name of each database, the last directory (in the order of the directory listing) of a discoverable
module that gives this database, except for names given to it with a module of their own. -/
theorem group_discovers (run : String → Outcome Executed) (root : Root.Dir) (given : PyDict String String) (hg : given.WF) :
    ((∃ g, groupInit run root true given = .ok g) ↔ ∀ dir ∈ findDbmodules run root, ∃ db, GivesDb run root dir db) ∧
    ∀ g, groupInit run root true given = .ok g → g.root = root ∧ ∀ db dir, g.modules.dget db = some dir ↔
      given.dget db = some dir ∨ (given.dget db = none ∧ LastHolding run root (findDbmodules run root) dir db) := by
  obtain ⟨h1, h2⟩ := discover_spec run root (findDbmodules run root)
  unfold groupInit
  rw [if_pos rfl]
  cases hd : discover run root (findDbmodules run root) with
  | error e =>
    refine ⟨⟨fun ⟨g, h⟩ => (by simp at h), fun h => ?_⟩, fun g h => (by simp at h)⟩
    obtain ⟨d, hd'⟩ := h1.2 h
    rw [hd] at hd'; cases hd'
  | ok d =>
    refine ⟨⟨fun _ => h1.1 ⟨d, hd⟩, fun _ => ⟨_, rfl⟩⟩, fun g hgr => ?_⟩
    cases Except.ok.inj hgr
    refine ⟨rfl, fun db dir => ?_⟩
    show (d.dmerge given).dget db = _ ↔ _
    rw [PyDict.dget_dmerge _ _ hg, ← (h2 d hd).2 db dir]
    cases given.dget db <;> simp

/-- C94: without discovery the group lists what it is given. -/
theorem group_undiscovered (run : String → Outcome Executed) (root : Root.Dir) (given : PyDict String String) :
    groupInit run root false given = .ok ⟨root, given⟩ := rfl

/-- C94: `DbGroup(root)` without further arguments discovers and is given nothing. -/
theorem group_default (run : String → Outcome Executed) (root : Root.Dir) : groupInit run root = groupInit run root true [] := rfl

/-- Two modules of one database, a broken directory and a foreign file: the second module is listed. -/
def groupRoot : Root.Dir :=
  [("one", .dir [("__init__.py", .file (.other "A"))]), ("junk", .dir [("__init__.py", .file (.other "?"))]),
   ("two", .dir [("__init__.py", .file (.other "A"))]), ("three", .dir [("__init__.py", .file (.other "B"))]), ("readme", .file (.other "A"))]

def groupRun (text : String) : Outcome Executed :=
  if text = "A" ∨ text = "B" then .ok ⟨true, .ok ("db" ++ text)⟩ else .error .valueError

example : ∃ g, groupInit groupRun groupRoot true [("mine", "x")] = .ok g ∧ g.modules.dget "dbA" = some "two" ∧
    g.modules.dget "dbB" = some "three" ∧ g.modules.dget "mine" = some "x" ∧ g.modules.length = 3 := ⟨_, rfl, by decide +kernel⟩

/-! ### C78 -/

/-- **C78 (counterexample).** `destroy_dbmodule(name)` never removes the module from the
group's dictionary, whatever happens to the files. -/
theorem group_destroy_counterexample (g : DbGroup) (name : String) :
    (groupDestroy g name).2.modules = g.modules := by
  unfold groupDestroy; split_ifs <;> rfl

/-- C78 (partial): for a name that is not empty the files are handled as in C48 and no other module's directory is touched. -/
theorem group_destroy_partial (g : DbGroup) (hr : g.root.WF) (name : String) (hn : name ≠ "") :
    (groupDestroy g name).1 = (deleteDbmodule g.root name).1 ∧
    OnlyChanges g.root (groupDestroy g name).2.root name := by
  unfold groupDestroy
  rw [if_neg hn]
  exact ⟨rfl, delete_dbmodule_frame g.root hr name true false false⟩

open Classical in
theorem removeFiles_spec (l : List (String × Entry)) (hl : ∀ d, ("__init__.py", Entry.dir d) ∉ l) : ∀ (r : Root.Dir), r.WF →
    (removeFiles l r).1 = .ok () ∧ (removeFiles l r).2.WF ∧
    ∀ x, (removeFiles l r).2.dget x = if ∃ c, (x, Entry.file c) ∈ l then none else r.dget x := by
  induction l with
  | nil => intro r hr; exact ⟨rfl, hr, fun x => by simp [removeFiles]⟩
  | cons p l ih =>
    intro r hr
    obtain ⟨n, e⟩ := p
    have hl' : ∀ d, ("__init__.py", Entry.dir d) ∉ l := fun d h => hl d (List.mem_cons_of_mem _ h)
    cases e with
    | file c =>
      obtain ⟨h1, h2, h3⟩ := ih hl' (r.ddel n) (PyDict.wf_ddel hr n)
      refine ⟨h1, h2, fun x => ?_⟩
      show (removeFiles l (r.ddel n)).2.dget x = _
      rw [h3, PyDict.dget_ddel hr]
      by_cases hx : x = n
      · subst hx
        rw [if_pos rfl, ite_self, if_pos ⟨c, List.mem_cons_self⟩]
      · rw [if_neg hx]
        have : (∃ c', (x, Entry.file c') ∈ (n, Entry.file c) :: l) ↔ ∃ c', (x, Entry.file c') ∈ l := by
          simp [hx]
        by_cases hc : ∃ c', (x, Entry.file c') ∈ l
        · rw [if_pos hc, if_pos (this.2 hc)]
        · rw [if_neg hc, if_neg fun h => hc (this.1 h)]
    | dir d =>
      have hne : n ≠ "__init__.py" := fun h => hl d (by rw [h]; exact List.mem_cons_self)
      obtain ⟨h1, h2, h3⟩ := ih hl' r hr
      have e1 : removeFiles ((n, Entry.dir d) :: l) r = removeFiles l r := by
        rw [removeFiles, if_neg hne]
      rw [e1]
      refine ⟨h1, h2, fun x => ?_⟩
      rw [h3]
      have : (∃ c', (x, Entry.file c') ∈ (n, Entry.dir d) :: l) ↔ ∃ c', (x, Entry.file c') ∈ l := by simp
      by_cases hc : ∃ c', (x, Entry.file c') ∈ l
      · rw [if_pos hc, if_pos (this.2 hc)]
      · rw [if_neg hc, if_neg fun h => hc (this.1 h)]

/-- **C78 (counterexample, every group).** `destroy_dbmodule('')` deletes every file of the group's directory, whatever its name, and
none of the modules. -/
theorem group_destroy_empty_counterexample (g : DbGroup) (hr : g.root.WF) (hi : ∀ d, g.root.dget "__init__.py" ≠ some (.dir d)) :
    (groupDestroy g "").1 = .ok () ∧
    ∀ x e, (groupDestroy g "").2.root.dget x = some e ↔ g.root.dget x = some e ∧ ∃ d, e = .dir d := by
  have hl : ∀ d, ("__init__.py", Entry.dir d) ∉ g.root := fun d h => hi d (PyDict.dget_of_mem hr h)
  obtain ⟨h1, -, h3⟩ := removeFiles_spec g.root hl g.root hr
  have e1 : groupDestroy g "" = ((removeFiles g.root g.root).1, { g with root := (removeFiles g.root g.root).2 }) := if_pos rfl
  rw [e1]
  refine ⟨h1, fun x e => ?_⟩
  show (removeFiles g.root g.root).2.dget x = some e ↔ _
  rw [h3]
  constructor
  · intro h
    split_ifs at h with hc
    refine ⟨h, ?_⟩
    cases e with
    | file c => exact absurd ⟨c, PyDict.dget_mem h⟩ hc
    | dir d => exact ⟨d, rfl⟩
  · rintro ⟨h, d, rfl⟩
    rw [if_neg, h]
    rintro ⟨c, hc⟩
    rw [PyDict.dget_of_mem hr hc] at h
    cases h

/-- Non-vacuity: `exampleRoot` has the file "b" besides the module "a". -/
example : exampleRoot.WF ∧ (∀ d, exampleRoot.dget "__init__.py" ≠ some (.dir d)) ∧ exampleRoot.dget "b" = some (.file (.other "other")) ∧
    ((groupDestroy ⟨exampleRoot, []⟩ "").2.root.map Prod.fst) = ["a"] := by
  refine ⟨by simp only [List.WF]; decide, fun d h => ?_, by decide +kernel, by decide +kernel⟩
  have : exampleRoot.dget "__init__.py" = none := by decide +kernel
  rw [this] at h; cases h

/-- The path of a module is set at most once: after any history of assignments it is the first
assigned path that existed. -/
theorem module_path_set_once (exists_ : String → Bool) (vals : List String) :
    vals.foldl (fun p v => (setPath exists_ p v).2) none = vals.find? exists_ := by
  have hsome : ∀ (vals : List String) p, vals.foldl (fun p v => (setPath exists_ p v).2) (some p) = some p := by
    intro vals
    induction vals with
    | nil => intro p; rfl
    | cons v vals ih => intro p; exact ih p
  induction vals with
  | nil => rfl
  | cons v vals ih =>
    rw [List.foldl_cons, List.find?_cons]
    unfold setPath
    simp only
    cases hv : exists_ v with
    | true => simp only [if_true]; exact hsome vals v
    | false => simp only [Bool.false_eq_true, if_false]; exact ih

end Verif.Props
