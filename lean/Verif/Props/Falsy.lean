import Verif.Props.DurableMap

/-!
# Databases with falsy objects (C129)

`0`, `""`, empty lists and objects with `__len__` 0 or `__bool__` False are falsy; `Container.read` skips them.
-/
namespace Verif.Props.Falsy
open Verif Verif.Storage Verif.Spec Verif.Db Verif.Props
variable {V : Type} [Truthy V]

/-! ### Specification -/

/-- What reading shows of an entry: falsy objects are not seen. -/
def seen (o : Option V) : Option V := o.filter truthy

/-- The answer of a call on the map: only `update` reads. -/
def Answers (m : Map V) (op : DbOp V) (r : Outcome (DbRet V)) : Prop :=
  match op with
  | .create id _ => r = if m id = none then .ok (.count (some 1)) else .error .objectOverwrite
  | .update id _ => r = .ok (.prev (seen (m id)))
  | .delete id => r = .ok (.objs (m id).toList)
  | .strict value => r = if value = none then .error .typeError else .ok .unit

/-- The answer of a call on the transactional map. -/
def StoreAnswers (s : Store V) (op : DbOp V) (ok : Bool) (r : Outcome (DbRet V)) : Prop :=
  if s.auto ∧ isWrite op then
    if s.disk.apply op ≠ none ∧ ok = false then r = .error .storageError else Answers s.disk op r
  else if s.broken then r = .error .transactionFailed
  else Answers s.mem op r

/-- What a session shows and answers is what the transactional map says, but that falsy objects are not seen by reading. -/
structure ShowsAll (c : Conn V) (s : Store V) : Prop where
  read : ∀ id, c.read id = .ok (seen (s.mem id))
  item : ∀ id, c.getItem id = if s.mem id = none then .error .keyError else .ok (seen (s.mem id))
  items : ∀ ids, c.getItems ids = if ∀ id ∈ ids, seen (s.mem id) = none then .error .keyError else .ok (ids.map fun id => seen (s.mem id))
  reopened : ∀ a id, (c.step (.crash a)).read id = .ok (seen (s.disk id))
  answers : ∀ op ok, op ≠ .strict (some true) → StoreAnswers s op ok (c.call op ok).1

/-! ### Containers -/

/-- Every copy of an object in the container satisfies `P`. -/
def Known (P : String → V → Prop) (c : Container V) : Prop := ∀ a ∈ c.groups, ∀ id w, c.view a id = some w → P id w

omit [Truthy V] in
/-- A container whose primary group shows `m'` and whose other groups are old. -/
theorem known_of {P : String → V → Prop} {c c' : Container V} {m' : Map V} (hk : Known P c) (h : Hist c' m') (hm : ∀ id w, m' id = some w → P id w)
    (ht : ∀ a ∈ c'.groups.tail, a ∈ c.groups ∧ ∀ id w, c'.view a id = some w → c.view a id = some w) : Known P c' := by
  intro a ha id w hw
  rw [h.head.eq] at ha
  rcases List.mem_cons.1 ha with rfl | ha
  · rw [h.shows] at hw; exact hm id w hw
  · exact hk a (ht a ha).1 id w ((ht a ha).2 id w hw)

omit [Truthy V] in
theorem known_step {P : String → V → Prop} {c : Container V} {m : Map V} (h : Hist c m) (hn : (c.heap c.primary).NonStrict) (hk : Known P c)
    (op : ContCall V) (hw : ∀ id v, op = .write id v → P id v) : Known P (c.call op).2 := by
  have h' := h.step op fun _ _ => hn
  have hpm : c.primary ∈ c.groups := by rw [h.head.eq]; simp
  have hmP : ∀ id w, m id = some w → P id w := fun id w hid => hk c.primary hpm id w (by rw [h.shows]; exact hid)
  have hi := h.reach.inv
  refine known_of hk h' ?_ ?_
  · intro id w hid
    split_ifs at hid with hr
    · cases op with
      | write k v =>
        have hid2 : (if id = k then some v else m id) = some w := hid
        split_ifs at hid2 with hx
        · subst hx; obtain rfl := Option.some.inj hid2; exact hw _ _ rfl
        · exact hmP id w hid2
      | delete k =>
        have hid : (if id = k then none else m id) = some w := hid
        split_ifs at hid
        exact hmP id w hid
      | resize n mc cd t => exact hmP id w hid
      | condense t => exact hmP id w hid
      | setStrict b => exact hmP id w hid
    · exact hmP id w hid
  · intro a ha
    cases op with
    | write k v =>
      rcases Container.write_spec hi.pinv k v with ⟨e, h1, _⟩ | ⟨g, h1, h2, h3, h4⟩
      · simp only [Container.call, h1] at ha ⊢
        exact ⟨List.mem_of_mem_tail ha, fun _ _ h => h⟩
      · simp only [Container.call, h1] at ha ⊢
        have ha : a ∈ c.groups.tail := ha
        refine ⟨List.mem_of_mem_tail ha, fun id w hw => ?_⟩
        unfold Container.view at hw ⊢
        rw [Container.heap_put_ne _ _ (h.tail_ne ha)] at hw
        exact hw
    | delete k =>
      obtain ⟨h1, h2⟩ := Container.delete_spec hi k
      have ha1 : a ∈ (c.delete k).2.groups.tail := ha
      rw [h1.groups] at ha1
      have ha2 := List.mem_of_mem_tail ha1
      refine ⟨ha2, fun id w hw => ?_⟩
      have hw : (c.delete k).2.view a id = some w := hw
      by_cases hx : id = k
      · subst hx
        rcases h2 with ⟨_, _, h4⟩ | ⟨h3, _⟩
        · rw [h4 a ha2] at hw; cases hw
        · exact absurd (h.chain.imp fun hab => hab id) h3
      · rw [h1.frame a (hi.inv a ha2) id hx] at hw; exact hw
    | resize n mc cd t =>
      have ha : a ∈ (c.resize n mc cd t).2.groups.tail := ha
      show _ ∧ ∀ id w, (c.resize n mc cd t).2.view a id = some w → _
      by_cases hz : n = 0 ∨ mc = 0
      · obtain ⟨e, he⟩ := (container_resize c h.reach n mc cd t).2.1 hz
        rw [he] at ha ⊢
        exact ⟨List.mem_of_mem_tail ha, fun _ _ h => h⟩
      · obtain ⟨_, _, _, _, _, _, r7, _, r9⟩ := resize_spec hi n mc cd t (by omega) (by omega)
        have hh := r9 a ha
        refine ⟨?_, fun id w hw => ?_⟩
        · rw [r7] at ha
          simp only [List.tail_cons] at ha
          split_ifs at ha
          · cases ha
          · exact ha
          · exact List.mem_of_mem_tail ha
          · exact ha
        · unfold Container.view at hw ⊢
          rw [hh] at hw; exact hw
    | condense t =>
      have ha : a ∈ (c.condense t).2.groups.tail := ha
      show _ ∧ ∀ id w, (c.condense t).2.view a id = some w → _
      cases t with
      | true =>
        obtain ⟨_, h2, _⟩ := container_condense_partial c h.reach h.head hn
        rw [h2] at ha; simp at ha
      | false =>
        obtain ⟨_, h2, _, _, _, h6⟩ := container_condense_copy_partial c h.reach h.head hn
        rw [h2] at ha
        refine ⟨List.mem_of_mem_tail ha, fun id w hw => ?_⟩
        unfold Container.view at hw ⊢
        rw [h6 a ha] at hw; exact hw
    | setStrict b =>
      cases b with
      | none => exact ⟨List.mem_of_mem_tail ha, fun _ _ h => h⟩
      | some b =>
        have ha : a ∈ c.groups.tail := ha
        refine ⟨List.mem_of_mem_tail ha, fun id w hw => ?_⟩
        have hw : (c.put c.primary ((c.heap c.primary).setStrict (some b)).2).view a id = some w := hw
        unfold Container.view at hw ⊢
        rw [Container.heap_put_ne _ _ (h.tail_ne ha)] at hw
        exact hw

/-- C129: what Python takes for false: None, False, zero, the empty text, and objects that say so themselves. -/
theorem python_falsy (v : PyVal) : truthy v = false ↔ v = .none ∨ v = .bool false ∨ v = .int 0 ∨ v = .str "" ∨ ∃ r, v = .obj r false := by
  cases v with
  | none => simp [truthy, PyVal.truthy]
  | bool b => simp [truthy, PyVal.truthy]
  | int i => simp [truthy, PyVal.truthy]
  | str s => simp [truthy, PyVal.truthy]
  | obj r t => simp [truthy, PyVal.truthy]

theorem seen_some {v : V} (h : truthy v = true) : seen (some v) = some v := by simp [seen, Option.filter, h]
theorem seen_falsy {v : V} (h : truthy v = false) : seen (some v) = none := by simp [seen, Option.filter, h]
theorem seen_truthy {o : Option V} {w : V} (h : seen o = some w) : o = some w ∧ truthy w = true := by
  cases o with
  | none => cases h
  | some v =>
    cases hv : truthy v with
    | true => rw [seen_some hv] at h; obtain rfl := Option.some.inj h; exact ⟨rfl, hv⟩
    | false => rw [seen_falsy hv] at h; cases h

/-- Reading: the first truthy copy. -/
theorem read_hist {c : Container V} {m : Map V} (h : Hist c m) (id : String) :
    c.read id = .ok ((seen (m id)).or (c.groups.tail.findSome? fun a => seen (c.view a id))) := by
  rw [Container.read_eq h.reach.inv, h.head.eq, List.findSome?_cons]
  rw [h.shows]
  show Except.ok (match seen (m id) with | some b => some b | none => _) = _
  cases seen (m id) <;> rfl

/-- **C129, containers.** Non-strict container made by `Container.new`, any history of writes, deletes, resizes and condenses, any objects,
falsy ones included: `has` tells exactly whether there is a latest object, `delete` returns it, and reading gives it if it is truthy; if it is
falsy, reading gives the default or an object written before under this id, and the default if there is only one group. -/
theorem container_history_falsy (capacity mc : Nat) (c0 : Container V) (h0 : Container.new capacity mc false = .ok c0) (ops : List (ContCall V))
    (hops : ∀ op ∈ ops, op ≠ .setStrict (some true)) (id : String) :
    let r := c0.run ops
    let m := latest Map.empty ops r.1
    (r.2.has id = .ok 0 ↔ m id = none) ∧
    (∃ vs, (r.2.delete id).1 = .ok vs ∧ vs.head? = m id) ∧
    (m id = none → r.2.read id = .ok none) ∧
    (∀ v, m id = some v → truthy v = true → r.2.read id = .ok (some v)) ∧
    (∀ v, m id = some v → truthy v = false → r.2.read id = .ok none ∨ ∃ w, truthy w = true ∧ ContCall.write id w ∈ ops ∧ r.2.read id = .ok (some w)) ∧
    (r.2.groups.length = 1 → r.2.read id = .ok (seen (m id))) := by
  intro r m
  have key : ∀ (ops : List (ContCall V)) (c : Container V) (m : Map V), Hist c m → (c.heap c.primary).NonStrict →
      (∀ op ∈ ops, op ≠ .setStrict (some true)) → ∀ P : String → V → Prop, Known P c → (∀ id w, ContCall.write id w ∈ ops → P id w) →
      Hist (c.run ops).2 (latest m ops (c.run ops).1) ∧ Known P (c.run ops).2 := by
    intro ops
    induction ops with
    | nil => intro c m h _ _ P hk _; exact ⟨h, hk⟩
    | cons op ops ih =>
      intro c m h hn hall P hk hP
      exact ih _ _ (h.step op fun _ _ => hn) (h.nonstrict hn op (hall op List.mem_cons_self)).1 (fun o ho => hall o (List.mem_cons_of_mem _ ho)) P
        (known_step h hn hk op fun id v e => hP id v (by rw [← e]; exact List.mem_cons_self)) fun id w hw => hP id w (List.mem_cons_of_mem _ hw)
  have hnew := Hist.new h0
  have hk0 : Known (fun id w => ContCall.write id w ∈ ops) c0 := by
    intro a ha id w hw
    have := Container.first_eq_none.1 (hnew.first id) a ha
    rw [this] at hw; cases hw
  obtain ⟨hh, hk⟩ := key ops c0 Map.empty hnew (new_nonstrict h0) hops _ hk0 fun _ _ h => h
  have hread := read_hist hh id
  obtain ⟨n, hn1, hn2⟩ := Container.has_pos hh.reach.inv id
  refine ⟨?_, ?_, ?_, ?_, ?_, ?_⟩
  · rw [hh.first id] at hn2
    show (c0.run ops).2.has id = .ok 0 ↔ latest Map.empty ops (c0.run ops).1 id = none
    rw [hn1]
    constructor
    · intro h
      by_contra hne
      have := hn2.2 hne
      injection h with h
      omega
    · intro h
      cases n with
      | zero => rfl
      | succ n => exact absurd h (hn2.1 (Nat.succ_pos n))
  · have hd := (container_delete_partial _ hh.reach id (hh.chain.imp fun hab => hab id)).1
    refine ⟨_, hd, ?_⟩
    rw [List.head?_filterMap]
    exact hh.first id
  · intro hm
    have hall := Container.first_eq_none.1 ((hh.first id).trans hm)
    have h0 : (c0.run ops).2.groups.tail.findSome? (fun a => seen ((c0.run ops).2.view a id)) = none := by
      rw [List.findSome?_eq_none_iff]
      intro a ha
      rw [hall a (List.mem_of_mem_tail ha)]; rfl
    have hm : latest Map.empty ops (c0.run ops).1 id = none := hm
    rw [h0, hm] at hread
    exact hread
  · intro v hm hv
    have hm : latest Map.empty ops (c0.run ops).1 id = some v := hm
    rw [hm, seen_some hv] at hread
    exact hread
  · intro v hm hv
    have hm : latest Map.empty ops (c0.run ops).1 id = some v := hm
    rw [hm, seen_falsy hv] at hread
    cases hf : (c0.run ops).2.groups.tail.findSome? (fun a => seen ((c0.run ops).2.view a id)) with
    | none => rw [hf] at hread; exact .inl hread
    | some w =>
      rw [hf] at hread
      obtain ⟨a, ha, hw⟩ := List.exists_of_findSome?_eq_some hf
      obtain ⟨hw1, hw2⟩ := seen_truthy hw
      exact .inr ⟨w, hw2, hk a (List.mem_of_mem_tail ha) id w hw1, hread⟩
  · intro hl
    have hl : (c0.run ops).2.groups.length = 1 := hl
    have : (c0.run ops).2.groups.tail = [] := by
      apply List.eq_nil_of_length_eq_zero
      rw [List.length_tail, hl]
    rw [this] at hread
    show (c0.run ops).2.read id = .ok (seen (latest Map.empty ops (c0.run ops).1 id))
    rw [hread]
    cases seen (latest Map.empty ops (c0.run ops).1 id) <;> rfl

/-- **C25 and C22 are false: an old object comes back.** Whatever the sizes: after writing a truthy object, resizing without moving
anything out of the old group and writing a falsy object under the same id, reading gives the old object again. -/
theorem stale_object_counterexample (capacity mc : Nat) (c0 : Container V) (h0 : Container.new capacity mc false = .ok c0) (id : String) (v w : V)
    (hv : truthy v = true) (hw : truthy w = false) (n k : Nat) (hn : 1 ≤ n) (hk : 1 ≤ k) (cd : Bool) :
    let ops : List (ContCall V) := [.write id v, .resize n k cd false, .write id w]
    latest Map.empty ops (c0.run ops).1 id = some w ∧ (c0.run ops).2.read id = .ok (some v) := by
  intro ops
  have h1 := Hist.new h0
  have n1 := new_nonstrict h0
  have h2 := h1.step (.write id v) fun _ h => by cases h
  obtain ⟨n2, r2⟩ := h1.nonstrict n1 (.write id v) (by simp)
  have r2' : Returned (c0.call (.write id v)).1 = true := by
    rcases r2 with r | ⟨_, _, _, _, h, _⟩ | h
    · exact r
    · cases h
    · cases h
  rw [if_pos r2'] at h2
  obtain ⟨c1, hc1⟩ : ∃ c1, c1 = (c0.call (.write id v)).2 := ⟨_, rfl⟩
  rw [← hc1] at h2 n2
  obtain ⟨⟨r, q1⟩, q2, q3, _, q5, _, q7, _, q9⟩ := resize_spec h2.reach.inv n k cd false hn hk
  have h3 := h2.step (.resize n k cd false) fun _ h => by cases h
  obtain ⟨c2, hc2⟩ : ∃ c2, c2 = (c1.call (.resize n k cd false)).2 := ⟨_, rfl⟩
  have hm3 : (if Returned (c1.call (.resize n k cd false)).1 then applyCall (applyCall Map.empty (.write id v)) (.resize n k cd false)
      else applyCall Map.empty (.write id v)) = applyCall Map.empty (.write id v) := by split_ifs <;> rfl
  rw [← hc2, hm3] at h3
  have hres : c2 = (c1.resize n k cd false).2 := hc2
  rw [← hres] at q2 q3 q5 q7 q9
  have hg2 : c2.groups = c1.next :: c1.groups := by
    rw [q7]; cases cd <;> rfl
  have h4 := h3.step (.write id w) fun _ h => by cases h
  obtain ⟨n4, r4⟩ := h3.nonstrict q5 (.write id w) (by simp)
  have r4' : Returned (c2.call (.write id w)).1 = true := by
    rcases r4 with r | ⟨_, _, _, _, h, _⟩ | h
    · exact r
    · cases h
    · cases h
  rw [if_pos r4'] at h4
  have hrun : (c0.run ops).2 = (c2.call (.write id w)).2 := by rw [hc2, hc1]; rfl
  have hlat : latest Map.empty ops (c0.run ops).1 = applyCall (applyCall Map.empty (.write id v)) (.write id w) := by
    have : (c0.run ops).1 = [(c0.call (.write id v)).1, (c1.call (.resize n k cd false)).1, (c2.call (.write id w)).1] := by rw [hc2, hc1]; rfl
    rw [this]
    show latest (if Returned (c0.call (.write id v)).1 then _ else _) _ _ = _
    rw [if_pos r2']
    show latest (if Returned (c1.call (.resize n k cd false)).1 then _ else _) _ _ = _
    rw [hm3]
    show latest (if Returned (c2.call (.write id w)).1 then _ else _) _ _ = _
    rw [if_pos r4']
    rfl
  refine ⟨?_, ?_⟩
  · rw [hlat]
    show (if id = id then some w else _) = some w
    rw [if_pos rfl]
  · rw [hrun, read_hist h4]
    have : applyCall (applyCall Map.empty (.write id v)) (.write id w) id = some w := if_pos rfl
    rw [this, seen_falsy hw]
    have hgr : (c2.call (.write id w)).2.groups = c2.groups ∧ ∀ a ∈ c1.groups, (c2.call (.write id w)).2.view a id = c1.view a id := by
      rcases Container.write_spec h3.reach.inv.pinv id w with ⟨e, g1, _⟩ | ⟨g, g1, _⟩
      · simp only [Container.call, g1] at r4'
        cases r4'
      · simp only [Container.call, g1]
        refine ⟨rfl, fun a ha => ?_⟩
        have hat : a ∈ c2.groups.tail := by rw [hg2]; exact ha
        unfold Container.view
        rw [Container.heap_put_ne _ _ (h3.tail_ne hat), q9 a hat]
    rw [hgr.1, hg2, List.tail_cons, h2.head.eq, List.findSome?_cons, hgr.2 c1.primary (by rw [h2.head.eq]; simp), h2.shows]
    have : applyCall Map.empty (.write id v) id = some v := if_pos rfl
    rw [this, seen_some hv]
    rfl

/-! ### Databases -/

/-- A container in use with a single group. -/
def Single (c : Container V) (m : Map V) : Prop := InUse c m ∧ c.groups.length = 1

theorem single_read {c : Container V} {m : Map V} (h : Single c m) (id : String) :
    c.read id = .ok (seen (m id)) ∧ (c.has id = .ok 0 ↔ m id = none) ∧ (c.delete id).1 = .ok (m id).toList := by
  have hh := h.1.hist.1
  have ht : c.groups.tail = [] := by
    apply List.eq_nil_of_length_eq_zero
    rw [List.length_tail, h.2]
  refine ⟨?_, ?_, ?_⟩
  · rw [read_hist hh, ht]
    cases seen (m id) <;> rfl
  · obtain ⟨n, hn1, hn2⟩ := Container.has_pos hh.reach.inv id
    rw [hh.first id] at hn2
    rw [hn1]
    constructor
    · intro h
      by_contra hne
      have := hn2.2 hne
      injection h with h
      omega
    · intro h
      cases n with
      | zero => rfl
      | succ n => exact absurd h (hn2.1 (Nat.succ_pos n))
  · have hd := (container_delete_partial _ hh.reach id (hh.chain.imp fun hab => hab id)).1
    rw [hd, hh.head.eq, ht]
    have : c.view c.primary id = m id := by rw [hh.shows]
    simp only [List.filterMap_cons, List.filterMap_nil, this]
    cases m id <;> rfl

omit [Truthy V] in
theorem single_write {c : Container V} {m : Map V} (h : Single c m) (id : String) (obj : V) :
    (c.write id obj).1 = .ok (if m id = none then some 1 else none) ∧ Single (c.write id obj).2 (m.set id obj) := by
  obtain ⟨hh, hn⟩ := h.1.hist
  rcases container_write_partial c hh.reach hh.head id obj with ⟨e, -, -, x, hx, hs⟩ | ⟨h1, -, h3, -⟩
  · rw [hn x hx] at hs; cases hs
  · rw [hh.shows] at h1
    refine ⟨h1, ?_, by rw [h3]; exact h.2⟩
    have := h.1.call (.write id obj) (by simp)
    have hret : Returned (c.call (.write id obj)).1 = true := by
      unfold Container.call
      simp only
      rw [h1]; rfl
    rw [if_pos hret] at this
    exact this

omit [Truthy V] in
theorem single_delete {c : Container V} {m : Map V} (h : Single c m) (id : String) : Single (c.delete id).2 (m.remove id) := by
  obtain ⟨hh, hn⟩ := h.1.hist
  have hd := container_delete_partial c hh.reach id (hh.chain.imp fun hab => hab id)
  refine ⟨?_, by rw [hd.2.1]; exact h.2⟩
  have := h.1.call (.delete id) (by simp)
  have hret : Returned (c.call (.delete id)).1 = true := by
    unfold Container.call
    simp only
    rw [hd.1]; rfl
  rw [if_pos hret] at this
  exact this

/-- A call on a container with one group is the call on the map. -/
theorem single_fn {c : Container V} {m : Map V} (h : Single c m) (op : DbOp V) (hop : op ≠ .strict (some true)) :
    Answers m op (op.fn c).1 ∧ Single (effect c op) ((m.apply op).getD m) ∧ (m.apply op = none ↔ ∃ e, (op.fn c).1 = .error e) := by
  cases op with
  | create id obj =>
    have hf := h.1.hist.1.first id
    by_cases hm : m id = none
    · have hc := createFn_absent h.1.hist.1.reach id obj (by rw [hf, hm])
      obtain ⟨hw, hs⟩ := single_write h id obj
      rw [if_pos hm] at hw
      have h1 : (createFn id obj c).1 = .ok (.count (some 1)) := by rw [hc, hw]; rfl
      refine ⟨?_, ?_, ?_⟩
      · show (createFn id obj c).1 = _
        rw [if_pos hm]; exact h1
      · show Single (createFn id obj c).2 _
        rw [hc]
        simp only [Map.apply, if_pos hm, Option.getD_some]
        exact hs
      · simp only [Map.apply, if_pos hm]
        show _ ↔ ∃ e, (createFn id obj c).1 = .error e
        rw [h1]; simp
    · have hc := createFn_present h.1.hist.1.reach id obj (by rw [hf]; exact hm)
      refine ⟨?_, ?_, ?_⟩
      · show (createFn id obj c).1 = _
        rw [hc, if_neg hm]
      · show Single (createFn id obj c).2 _
        rw [hc]
        simp only [Map.apply, if_neg hm, Option.getD_none]
        exact h
      · simp only [Map.apply, if_neg hm]
        show _ ↔ ∃ e, (createFn id obj c).1 = .error e
        rw [hc]; simp
  | update id obj =>
    have hr := (single_read h id).1
    obtain ⟨hw, hs⟩ := single_write h id obj
    have h1 : updateFn id obj c = (.ok (.prev (seen (m id))), (c.write id obj).2) := by
      unfold updateFn; rw [hr]; simp only; rw [hw]; rfl
    refine ⟨?_, ?_, ?_⟩
    · show (updateFn id obj c).1 = _
      rw [h1]
    · show Single (updateFn id obj c).2 _
      rw [h1]; exact hs
    · show _ ↔ ∃ e, (updateFn id obj c).1 = .error e
      rw [h1]; simp [Map.apply]
  | delete id =>
    have h1 := (single_read h id).2.2
    have h3 : (deleteFn id c).1 = .ok (.objs (m id).toList) := by unfold deleteFn; simp only; rw [h1]; rfl
    refine ⟨h3, single_delete h id, ?_⟩
    show _ ↔ ∃ e, (deleteFn id c).1 = .error e
    rw [h3]; simp [Map.apply]
  | strict value =>
    cases value with
    | none => exact ⟨rfl, h, by simp [Map.apply, DbOp.fn, strictFn]⟩
    | some b =>
      cases b with
      | true => exact absurd rfl hop
      | false =>
        have h1 : (strictFn (some false) c).1 = .ok .unit := rfl
        refine ⟨h1, ⟨?_, h.2⟩, ?_⟩
        · have := h.1.call (.setStrict (some false)) (by simp)
          have happ : (if Returned (c.call (.setStrict (some false))).1 then applyCall m (.setStrict (some false)) else m) = m := by
            split_ifs <;> rfl
          rw [happ] at this
          exact this
        · show _ ↔ ∃ e, (strictFn (some false) c).1 = .error e
          rw [h1]; simp [Map.apply]

/-- The session and the transactional map hold the same. -/
structure Match (c : Conn V) (s : Store V) : Prop where
  work : Single c.tm.work s.mem
  committed : Single c.tm.committed s.disk
  auto : c.tm.autocommit = s.auto
  broken : c.tm.failed = s.broken

theorem Match.call {c : Conn V} {s : Store V} (h : Match c s) (op : DbOp V) (hop : op ≠ .strict (some true)) (ok : Bool) :
    Match (c.call op ok).2 (s.call op ok) ∧ StoreAnswers s op ok (c.call op ok).1 := by
  obtain ⟨h1, h2, h3, h4⟩ := h
  by_cases hd : isWrite op = true ∧ c.tm.autocommit = true
  · obtain ⟨k1, k2, k3⟩ := call_on c hd.2 op hd.1 ok
    obtain ⟨f1, f2, f3⟩ := single_fn h2 op hop
    have hc : s.auto ∧ isWrite op := ⟨h3 ▸ hd.2, hd.1⟩
    unfold Store.call StoreAnswers
    rw [if_pos hc, if_pos hc]
    rcases hf : (op.fn c.tm.committed).1 with e | v
    · have hn := f3.2 ⟨e, hf⟩
      rw [k1 e hf, if_pos hn, if_neg (by simp [hn])]
      exact ⟨⟨h2, h2, h3, rfl⟩, by rw [← hf]; exact f1⟩
    · have hn : s.disk.apply op ≠ none := fun hn => by
        obtain ⟨e, he⟩ := f3.1 hn
        rw [he] at hf; cases hf
      rw [if_neg hn]
      cases ok with
      | true =>
        rw [k2 v hf rfl, if_pos rfl, if_neg (by simp)]
        exact ⟨⟨f2, f2, h3, rfl⟩, by rw [← hf]; exact f1⟩
      | false =>
        rw [k3 v hf rfl, if_neg (by simp), if_pos ⟨hn, rfl⟩]
        exact ⟨⟨h2, h2, rfl, rfl⟩, rfl⟩
  · have hoff : c.tm.autocommit = false ∨ isWrite op = false := by
      rcases ha : c.tm.autocommit with _ | _
      · exact .inl rfl
      · rcases hb : isWrite op with _ | _
        · exact .inr rfl
        · exact absurd ⟨hb, ha⟩ hd
    have hc : ¬ (s.auto ∧ isWrite op) := by rw [← h3]; exact fun hc => hd ⟨hc.2, hc.1⟩
    unfold Store.call StoreAnswers
    rw [if_neg hc, if_neg hc]
    cases hb : s.broken with
    | true =>
      rw [call_failed c op hoff (by rw [h4, hb])]
      exact ⟨⟨h1, h2, h3, by rw [if_pos rfl]; exact h4⟩, by rw [if_pos rfl]⟩
    | false =>
      rw [call_off c op hoff (by rw [h4, hb])]
      obtain ⟨f1, f2, -⟩ := single_fn h1 op hop
      exact ⟨⟨f2, h2, h3, h4.trans hb⟩, f1⟩

omit [Truthy V] in
theorem Match.commit {c : Conn V} {s : Store V} (h : Match c s) (ok : Bool) (f : Bool) :
    Match { tm := (c.tm.commit ok).2, flag := f } (s.commit ok) := by
  obtain ⟨h1, h2, h3, h4⟩ := h
  unfold Tm.commit Store.commit
  rw [h4]
  cases hb : s.broken with
  | true => rw [if_pos rfl, if_pos rfl]; exact ⟨h1, h2, h3, h4⟩
  | false =>
    cases ok with
    | true => exact ⟨h1, h1, h3, rfl⟩
    | false => exact ⟨h2, h2, h3, rfl⟩

theorem Match.step {c : Conn V} {s : Store V} (h : Match c s) (e : Event V) (he : Lenient e) : Match (c.step e) (s.step e) := by
  cases e with
  | call op ok =>
    refine (h.call op ?_ ok).1
    rintro rfl
    exact he
  | setAutocommit value =>
    cases value with
    | none => exact ⟨h.work, h.committed, h.auto, h.broken⟩
    | some b => exact ⟨h.work, h.committed, rfl, h.broken⟩
  | enter => exact ⟨h.committed, h.committed, rfl, rfl⟩
  | exit raised ok =>
    cases raised with
    | true => exact ⟨h.committed, h.committed, rfl, rfl⟩
    | false =>
      have hc := Match.commit (c := { c with tm := { c.tm with autocommit := true } }) (s := { s with auto := true })
        ⟨h.work, h.committed, rfl, h.broken⟩ ok true
      show Match (c.exit false ok).2 _
      unfold Conn.exit Tm.exit
      simp only [Bool.false_eq_true, if_false]
      have hs : ({ (s.commit ok) with auto := true } : Store V) = ({ s with auto := true } : Store V).commit ok := by
        unfold Store.commit
        cases hb : s.broken <;> cases ok <;> simp [hb]
      show Match _ ({ (s.commit ok) with auto := true } : Store V)
      rw [hs]
      have hau : (({ s with auto := true } : Store V).commit ok).auto = true := by
        unfold Store.commit
        cases hb : s.broken <;> cases ok <;> simp
      rcases hr : Tm.commit { c.tm with autocommit := true } ok with ⟨r, t'⟩
      rw [hr] at hc
      cases r with
      | error e => exact hc
      | ok u => exact ⟨hc.work, hc.committed, hau.symm, hc.broken⟩
  | commit ok => exact h.commit ok c.flag
  | abort => exact ⟨h.committed, h.committed, h.auto, rfl⟩
  | crash a => exact ⟨h.committed, h.committed, rfl, rfl⟩

theorem Match.steps (es : List (Event V)) : ∀ {c : Conn V} {s : Store V}, Match c s → (∀ e ∈ es, Lenient e) → Match (c.steps es) (s.steps es) := by
  induction es with
  | nil => intro c s h _; exact h
  | cons e es ih => intro c s h he; exact ih (h.step e (he e List.mem_cons_self)) fun x hx => he x (List.mem_cons_of_mem _ hx)

theorem mapM_seen {c : Container V} {m : Map V} (h : ∀ id, c.read id = .ok (seen (m id))) (ids : List String) :
    ids.mapM (fun id => c.read id) = .ok (ids.map fun id => seen (m id)) := by
  induction ids with
  | nil => rfl
  | cons id ids ih => rw [List.mapM_cons, h id, ih]; rfl

theorem Match.shows {c : Conn V} {s : Store V} (h : Match c s) : ShowsAll c s := by
  have hw := single_read h.work
  refine ⟨fun id => (hw id).1, fun id => ?_, fun ids => ?_, fun a id => (single_read h.committed id).1, fun op ok hop => (h.call op hop ok).2⟩
  · obtain ⟨h1, h2, _⟩ := hw id
    obtain ⟨n, hn, -⟩ := Container.has_pos h.work.1.hist.1.reach.inv id
    unfold Conn.getItem
    rw [h1, hn]
    rw [hn] at h2
    cases n with
    | zero => rw [if_pos (h2.1 rfl)]
    | succ n => rw [if_neg fun hm => by have := h2.2 hm; simp at this]
  · unfold Conn.getItems
    rw [mapM_seen fun id => (hw id).1]
    have htr : ∀ o : Option V, truthyOpt (seen o) = true ↔ seen o ≠ none := by
      intro o
      cases hs : seen o with
      | none => simp [truthyOpt]
      | some w => simp [truthyOpt, (seen_truthy hs).2]
    by_cases hall : ∀ id ∈ ids, seen (s.mem id) = none
    · rw [if_pos hall]
      have : (ids.map fun id => seen (s.mem id)).any truthyOpt = false := by
        rw [List.any_eq_false]
        intro v hv
        obtain ⟨id, hid, rfl⟩ := List.mem_map.1 hv
        rw [htr, hall id hid]; simp
      simp only
      rw [this]; rfl
    · rw [if_neg hall]
      have : (ids.map fun id => seen (s.mem id)).any truthyOpt = true := by
        push Not at hall
        obtain ⟨id, hid, hne⟩ := hall
        rw [List.any_eq_true]
        exact ⟨_, List.mem_map.2 ⟨id, hid, rfl⟩, (htr _).2 hne⟩
      simp only
      rw [this]; rfl

/-- **C129, databases.** A database made by `ContainerDb.new` with a positive capacity behaves, after every history of events, exactly like a
transactional map of all objects, falsy ones included; only, what is read of a falsy object is None. -/
theorem database_all_objects (d : Disk V) (capacity : Nat) (hcap : 1 ≤ capacity) (create strict a : Bool)
    (es : List (Event V)) (hes : ∀ e ∈ es, Lenient e) :
    ∃ conn, (newDb d capacity create strict).1.result = .ok () ∧
      connect ((newDb d capacity create strict).1.final (newDb d capacity create strict).2) a = .ok conn ∧
      ShowsAll (conn.steps es) (Store.steps ⟨Map.empty, Map.empty, true, false⟩ es) := by
  obtain ⟨c0, h0, h1, h2⟩ := createDb_spec (V := V) d capacity create strict hcap
  have hin : InUse c0 Map.empty := ⟨capacity, defaultCollectionSize, c0, [], h0, by simp, rfl, rfl⟩
  have hone : c0.groups.length = 1 := by
    obtain ⟨c', g1, g2, _⟩ := container_new (V := V) capacity defaultCollectionSize false hcap (by decide)
    rw [g1] at h0; injection h0 with h0; subst h0
    rw [g2]; rfl
  have hnew : newDb d capacity create strict = loadAfter (createDb d capacity create strict) := rfl
  unfold loadAfter at hnew
  rw [h1] at hnew
  simp only at hnew
  unfold Opened.final at h2
  have hop := openDb_some (V := V) { container := some c0, others := if create then [] else (d.map Root.others).getD [] }
  rw [← h2] at hop
  rw [hop] at hnew
  simp only [List.append_nil] at hnew
  obtain ⟨conn, hconn⟩ : ∃ conn, Conn.init (some c0) a = .ok conn := ⟨_, rfl⟩
  have hmatch : Match conn (⟨Map.empty, Map.empty, true, false⟩ : Store V) := by
    unfold Conn.init at hconn
    injection hconn with hconn
    subst hconn
    exact ⟨⟨hin, hone⟩, ⟨hin, hone⟩, rfl, rfl⟩
  refine ⟨conn, by rw [hnew], ?_, (hmatch.steps es hes).shows⟩
  rw [hnew]
  unfold Opened.final
  rw [h2]
  exact hconn

local instance : Truthy Nat := ⟨fun n => n != 0⟩

/-- Non-vacuity: a history with a falsy object, what the map has, what is seen and what a call answers. -/
example : let es : List (Event Nat) := [.call (.create "a" 0) true, .call (.create "a" 1) true, .call (.update "b" 2) true, .enter,
      .call (.update "b" 0) true, .exit false true]
    (∀ e ∈ es, Lenient e) ∧ (Store.steps ⟨Map.empty, Map.empty, true, false⟩ es).mem "a" = some 0 ∧
    seen ((Store.steps ⟨Map.empty, Map.empty, true, false⟩ es).mem "a") = none ∧
    (Store.steps ⟨Map.empty, Map.empty, true, false⟩ es).disk "b" = some 0 := by
  refine ⟨?_, by decide +kernel, by decide +kernel, by decide +kernel⟩
  intro e he
  simp only [List.mem_cons, List.not_mem_nil, or_false] at he
  rcases he with rfl | rfl | rfl | rfl | rfl | rfl <;> trivial

end Verif.Props.Falsy
