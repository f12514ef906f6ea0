import Verif.Props.ReadmeText

/-!
# C142: the JSON text of a new object shows what its constructor was given
-/
namespace Verif.Props.JsonArgs
open Verif Verif.Jsonld Verif.AS Verif.Props Verif.Spec Verif.Spec.Json Verif.Jsonld.Text Verif.Props.JsonText

variable {J : Type}

/-! ### Specification -/

/-- `t` is what JSON is to show of the single value `v`, given for a property (`links`: the property takes Links): texts and numbers as they are, booleans as
the texts True and False, Links by their address, other objects as they are written on their own but for the context (`nested_alone`). -/
inductive OneShown (env : Env) (P : Bool → String → Prop) (links : Bool) : Val → Tree → Prop where
  | text (s : String) : OneShown env P links (.str s) (.str s)
  | int (i : Int) : OneShown env P links (.int i) (.int i)
  | float (n : Bool) (r : String) (h : P n r) : OneShown env P links (.float n r) (.float n r)
  | bool (b : Bool) : OneShown env P links (.bool b) (.str (if b then "True" else "False"))
  | link (v : Val) (a : String) (hl : links = true) (h : isLink env v = true) (ha : hrefOf v = .str a) : OneShown env P links v (.str a)
  | obj (c : String) (x : String → Val) (hl : links = true → isLink env (objectOf c x) = false) (hw : Writable P (jsonView env (objectOf c x))) :
      OneShown env P links (objectOf c x) (toTree (handler (jsonView env (objectOf c x))))

/-- `t` is what JSON is to show of `v`, given for the property `r`: lists item by item, dates and durations as the texts of ActivityStreams. -/
inductive Shown (env : Env) (P : Bool → String → Prop) (r : PropRow) : Val → Tree → Prop where
  | one (v : Val) (t : Tree) (hp : r.parse = false) (h : OneShown env P r.fromStr v t) : Shown env P r v t
  | list (xs : List Val) (ts : List Tree) (h : List.Forall₂ (OneShown env P r.fromStr) xs ts) : Shown env P r (.list xs) (.arr ts)
  | tuple (xs : List Val) (ts : List Tree) (h : List.Forall₂ (OneShown env P r.fromStr) xs ts) : Shown env P r (.tuple xs) (.arr ts)
  | dateText (s : String) (t : DateTime) (hp : r.parse = true) (h : parseDatetime (.str s.toList) = .ok (.dt t)) (hr : env.dateOf (env.dateRepr t) = some t) :
      Shown env P r (.str s) (.str (String.ofList (datetimeStr t)))
  | date (c s : String) (t : DateTime) (hj : r.json = .date ∨ r.json = .hrefDate) (hc : "datetime" ∈ env.mro c) (hr : env.dateOf s = some t) :
      Shown env P r (.other c s) (.str (String.ofList (datetimeStr t)))
  | duration (c s : String) (t : TimeDelta) (hj : r.json = .delta) (hc : "timedelta" ∈ env.mro c) (hr : env.deltaOf s = some t) :
      Shown env P r (.other c s) (.str (String.ofList (timedeltaStr t)))

/-! ### Proofs -/

theorem one_leaf {env : Env} {P : Bool → String → Prop} {l : Bool} {v : Val} {t : Tree} (h : OneShown env P l v t) :
    items? v = none ∧ v ≠ .none ∧ (∀ c x, v ≠ .other c x) ∧ ∀ kvs, v ≠ .dict kvs := by
  cases h with
  | link _ a hl h ha => cases v <;> simp_all [isLink, items?]
  | _ => simp [items?, objectOf]

/-- What is written of a single value. -/
theorem one_plain {env : Env} {P : Bool → String → Prop} {l : Bool} {v : Val} {t : Tree} (h : OneShown env P l v t) (hl : l = false) :
    (jsonView env v).isNone = false ∧ toTree (handler (jsonView env v)) = t ∧ Writable P (jsonView env v) := by
  cases h with
  | text s => exact ⟨rfl, rfl, .str _⟩
  | int i => exact ⟨rfl, rfl, .int _⟩
  | float n r h => exact ⟨rfl, rfl, .float _ _ h⟩
  | bool b => exact ⟨rfl, rfl, .bool _⟩
  | link _ a h => rw [hl] at h; cases h
  | obj c x _ hw => exact ⟨rfl, rfl, hw⟩

/-- What is written of a single value that was given to a property for Links. -/
theorem one_link {env : Env} {mk : Ctor} (hmk : MakesLinks env mk) {P : Bool → String → Prop} {v u : Val} {t : Tree} (h : OneShown env P true v t)
    (hu : LinkedFrom mk v u) : asLists u = u ∧ items? u = none ∧ (∀ c x, u ≠ .other c x) ∧ (jsonView env (hrefItem env u)).isNone = false ∧
      toTree (handler (jsonView env (hrefItem env u))) = t ∧ Writable P (jsonView env (hrefItem env u)) := by
  have same : u = v → (jsonView env (hrefItem env v)).isNone = false ∧ toTree (handler (jsonView env (hrefItem env v))) = t ∧
      Writable P (jsonView env (hrefItem env v)) →
      asLists u = u ∧ items? u = none ∧ (∀ c x, u ≠ .other c x) ∧ (jsonView env (hrefItem env u)).isNone = false ∧
      toTree (handler (jsonView env (hrefItem env u))) = t ∧ Writable P (jsonView env (hrefItem env u)) := by
    rintro rfl h3
    obtain ⟨l1, -, l2, -⟩ := one_leaf h
    exact ⟨onlyLists_asLists (.leaf _ l1), l1, l2, h3⟩
  have hother : (∀ s, v ≠ .str s) → u = v := by
    intro hs
    obtain ⟨l1, -, l2, l3⟩ := one_leaf h
    cases hu with
    | str s => rfl
    | url s => exact absurd rfl (hs s)
    | list => cases l1
    | tuple => cases l1
    | set => cases l1
    | dict kvs => exact absurd rfl (l3 kvs)
    | dictLink kvs => exact absurd rfl (l3 kvs)
    | other => rfl
  cases h with
  | text s =>
    cases hu with
    | str => exact same rfl ⟨rfl, rfl, .str _⟩
    | url _ _ hm =>
      obtain ⟨l, h1, h2, h3⟩ := hmk s
      rw [h1] at hm
      cases Except.ok.inj hm
      have hi : hrefItem env u = .str s := by rw [hrefItem_link h2, h3]
      cases u with
      | obj c fs => rw [hi]; exact ⟨rfl, rfl, by simp, rfl, rfl, .str _⟩
      | _ => simp [isLink] at h2
    | other _ h => exact absurd rfl (h s)
  | int i => exact same (hother (by simp)) ⟨rfl, rfl, .int _⟩
  | float n r hp => exact same (hother (by simp)) ⟨rfl, rfl, .float _ _ hp⟩
  | bool b => exact same (hother (by simp)) ⟨rfl, rfl, .bool _⟩
  | link _ a hl hk ha =>
    have hv : ∀ s, v ≠ .str s := by rintro s rfl; simp [isLink] at hk
    refine same (hother hv) ?_
    rw [hrefItem_link hk, ha]
    exact ⟨rfl, rfl, .str _⟩
  | obj c x hl hw =>
    refine same (hother (by simp [objectOf])) ?_
    have : hrefItem env (objectOf c x) = objectOf c x := by unfold hrefItem; rw [hl rfl]; rfl
    rw [this]
    exact ⟨rfl, rfl, hw⟩

theorem form_plain {r : PropRow} (hr : r ∈ propTable) (hf : r.fromStr = false) (hp : r.parse = false) (env : Env) {v : Val} (hv : ∀ c x, v ≠ .other c x) :
    r.form env v = v := by
  unfold PropRow.form
  rcases plain_rows r hr hf hp with h | h | h <;> rw [h] <;> cases v <;> first | rfl | (exact absurd rfl (hv _ _))

theorem handler_list (env : Env) (xs : List Val) :
    toTree (handler (jsonView env (.list xs))) = .arr (xs.map fun x => toTree (handler (jsonView env x))) := by
  rw [jsonView, handler, toTree, toTrees_map, handlerAll_map, jsonViews_map]
  simp

theorem list_written {env : Env} {P : Bool → String → Prop} {xs : List Val} {ts : List Tree}
    (h : List.Forall₂ (fun x t => (jsonView env x).isNone = false ∧ toTree (handler (jsonView env x)) = t ∧ Writable P (jsonView env x)) xs ts) :
    (jsonView env (.list xs)).isNone = false ∧ toTree (handler (jsonView env (.list xs))) = .arr ts ∧ Writable P (jsonView env (.list xs)) := by
  refine ⟨rfl, ?_, ?_⟩
  · rw [handler_list]
    refine congrArg Tree.arr ?_
    induction h with
    | nil => rfl
    | cons h _ ih => rw [List.map_cons, h.2.1, ih]
  · rw [jsonView, jsonViews_map]
    refine .list _ fun y hy => ?_
    obtain ⟨x, hx, rfl⟩ := List.mem_map.1 hy
    clear hy
    induction h with
    | nil => cases hx
    | cons h _ ih =>
      rcases List.mem_cons.1 hx with rfl | hx
      · exact h.2.2
      · exact ih hx

/-- What is written of a property is what JSON is to show of the value it was given. -/
theorem shown_written {env : Env} {mk : Ctor} (hmk : MakesLinks env mk) (hdt : "datetime" ∈ env.mro "datetime") {P : Bool → String → Prop} {r : PropRow}
    (hr : r ∈ propTable) {v x : Val} {t : Tree} (h : Shown env P r v t) (hs : StoredFor env mk r v x) :
    (jsonView env (r.form env x)).isNone = false ∧ toTree (handler (jsonView env (r.form env x))) = t ∧ Writable P (jsonView env (r.form env x)) := by
  have hlist : ∀ (xs us : List Val) (ts : List Tree), r.fromStr = true → List.Forall₂ (OneShown env P r.fromStr) xs ts →
      List.Forall₂ (LinkedFrom mk) xs us → (jsonView env (r.form env (asLists (.list us)))).isNone = false ∧
        toTree (handler (jsonView env (r.form env (asLists (.list us))))) = .arr ts ∧ Writable P (jsonView env (r.form env (asLists (.list us)))) := by
    intro xs us ts hf h1 h2
    have key : asLists (.list us) = .list us ∧ List.Forall₂ (fun x t => (jsonView env x).isNone = false ∧ toTree (handler (jsonView env x)) = t ∧
        Writable P (jsonView env x)) (us.map (hrefItem env)) ts := by
      rw [asLists]
      rw [hf] at h1
      induction h1 generalizing us with
      | nil => cases h2; exact ⟨rfl, .nil⟩
      | cons h1 _ ih =>
        cases h2 with
        | cons h2 h3 =>
          obtain ⟨i1, i2⟩ := ih _ h3
          obtain ⟨k1, -, -, k4⟩ := one_link hmk h1 h2
          rw [asListsAll, k1]
          refine ⟨?_, .cons k4 i2⟩
          injection i1 with i1
          rw [i1]
    rw [key.1, link_form hr hf env (by simp)]
    exact list_written key.2
  have hplain : ∀ (xs : List Val) (ts : List Tree), r.fromStr = false → r.parse = false → List.Forall₂ (OneShown env P r.fromStr) xs ts →
      (jsonView env (r.form env (.list (asListsAll xs)))).isNone = false ∧
        toTree (handler (jsonView env (r.form env (.list (asListsAll xs))))) = .arr ts ∧ Writable P (jsonView env (r.form env (.list (asListsAll xs)))) := by
    intro xs ts hf hp h1
    rw [form_plain hr hf hp env (by simp)]
    refine list_written ?_
    induction h1 with
    | nil => rw [asListsAll]; exact .nil
    | cons h1 _ ih =>
      rw [asListsAll, onlyLists_asLists (.leaf _ (one_leaf h1).1)]
      exact .cons (one_plain h1 hf) ih
  have hnodate : ∀ v x, DateFor env v x → (∀ s, v ≠ .str s) → v ≠ .none → "datetime" ∈ v.classes env.mro ∧ x = v := by
    intro v x hd h1 h2
    cases hd with
    | none => exact absurd rfl h2
    | date h => exact ⟨by assumption, rfl⟩
    | str s => exact absurd rfl (h1 s)
  cases h with
  | one _ _ hp h =>
    cases hs with
    | plain hf _ =>
      obtain ⟨l1, -, l2, -⟩ := one_leaf h
      rw [onlyLists_asLists (.leaf _ l1), form_plain hr hf hp env l2]
      exact one_plain h hf
    | link u hf hl =>
      rw [hf] at h
      obtain ⟨k1, k2, k3, k4⟩ := one_link hmk h hl
      rw [k1, link_form hr hf env k3, hrefOnly_leaf env k2]
      exact k4
    | date _ h' => rw [hp] at h'; cases h'
  | list xs ts h =>
    cases hs with
    | plain hf hp => rw [asLists]; exact hplain xs ts hf hp h
    | link u hf hl =>
      cases hl with
      | list _ us h2 => exact hlist xs us ts hf h h2
      | other _ _ _ hn => exact absurd rfl (hn xs)
    | date _ _ hd =>
      have := (hnodate _ _ hd (by simp) (by simp)).1
      simp [Val.classes] at this
  | tuple xs ts h =>
    cases hs with
    | plain hf hp => rw [asLists]; exact hplain xs ts hf hp h
    | link u hf hl =>
      cases hl with
      | tuple _ us h2 => exact hlist xs us ts hf h h2
      | other _ _ _ _ hn => exact absurd rfl (hn xs)
    | date _ _ hd =>
      have := (hnodate _ _ hd (by simp) (by simp)).1
      simp [Val.classes] at this
  | dateText s t hp h ht =>
    cases hs with
    | plain _ hp' => rw [hp] at hp'; cases hp'
    | link _ hf => have := (link_rows r hr hf).1; rw [hp] at this; cases this
    | date _ _ hd =>
      have hj := date_rows r hr hp
      have hx : x = .other "datetime" (env.dateRepr t) := by
        cases hd with
        | date h => rename_i h'; simp [Val.classes] at h'
        | str _ t' h' =>
          rw [h] at h'
          injection h' with h'
          injection h' with h'
          rw [h']
      have hi : isDate env (.other "datetime" (env.dateRepr t)) = true := by
        unfold isDate Val.isinstance
        rw [List.any_eq_true]
        exact ⟨"datetime", hdt, by simp⟩
      have : r.form env x = .str (String.ofList (datetimeStr t)) := by
        rw [hx]; unfold PropRow.form; rw [hj]
        show dateForm env _ = _
        unfold dateForm
        simp only [hi, if_true, ht]
      rw [this]
      exact ⟨rfl, rfl, .str _⟩
  | date c s t hj hc ht =>
    have hx : x = .other c s := storedFor_atomic ⟨rfl, by simp, by simp⟩ hs
    have hi : isDate env (.other c s) = true := by
      unfold isDate Val.isinstance
      rw [List.any_eq_true]
      exact ⟨"datetime", hc, by simp⟩
    have hd : dateForm env (.other c s) = .str (String.ofList (datetimeStr t)) := by
      unfold dateForm
      simp only [hi, if_true, ht]
    have : r.form env x = .str (String.ofList (datetimeStr t)) := by
      rw [hx]; unfold PropRow.form
      rcases hj with hj | hj <;> rw [hj]
      · exact hd
      · show hrefOnly env (dateForm env _) = _
        rw [hd]; rfl
    rw [this]
    exact ⟨rfl, rfl, .str _⟩
  | duration c s t hj hc ht =>
    have hx : x = .other c s := storedFor_atomic ⟨rfl, by simp, by simp⟩ hs
    have hi : isDelta env (.other c s) = true := by
      unfold isDelta Val.isinstance
      rw [List.any_eq_true]
      exact ⟨"timedelta", hc, by simp⟩
    have : r.form env x = .str (String.ofList (timedeltaStr t)) := by
      rw [hx]; unfold PropRow.form; rw [hj]
      show deltaForm env _ = _
      unfold deltaForm
      simp only [hi, if_true, ht]
    rw [this]
    exact ⟨rfl, rfl, .str _⟩

/-- JSON values hold no objects. -/
theorem json_view (env : Env) {v : Val} (hv : Json v) : jsonView env v = v := by
  induction hv with
  | str s => rfl
  | int i => rfl
  | float n r => rfl
  | list xs _ ih =>
    rw [jsonView, jsonViews_map]
    congr 1
    conv => rhs; rw [← List.map_id xs]
    exact List.map_congr_left fun x hx => ih x hx
  | dict kvs _ _ ih =>
    rw [jsonView]
    congr 1
    clear * - ih
    induction kvs with
    | nil => rfl
    | cons a l ihl =>
      obtain ⟨k, v⟩ := a
      rw [jsonViewPairs, ih (k, v) (List.mem_cons_self ..), ihl fun kv hkv => ih kv (List.mem_cons_of_mem _ hkv)]

/-- **C142.** The text of a new object shows exactly what the class was called with: for every property that was given a value, what JSON is to show of that
value; the context, the type of the class, zeros for the numbers of collections that were not given; and nothing else.  (`Ordinary` leaves out the properties
that constructors lose, C80.) -/
theorem json_of_arguments_partial (value : String → Bool × String) (w : World J) (hmk : MakesLinks w.env w.link) (hdt : "datetime" ∈ w.env.mro "datetime")
    {c : String} (hc : c ∈ pkgClasses) (hno : c ∉ ["Object", "Link"]) (kw : List (String × Val)) (ctx : Tree) (hp : Plain ctx.toVal)
    (hpw : Writable (fun n r => PyFloat value n r ∧ Finite r) ctx.toVal) (hctx : argOf kw "acontext" = ctx.toVal)
    (hg : ∀ q, Ordinary c q → argOf kw q = .none ∨ ∃ t, Shown w.env (fun n r => PyFloat value n r ∧ Finite r) (rowOf q) (argOf kw q) t)
    (hn : ∀ q ∈ propNames c, q = "totalItems" ∨ q = "startIndex" → argOf kw q = .none ∨ ∃ n : Int, argOf kw q = .int n)
    (s : Slots) (h : construct w true c kw = .ok s) (o : Layout) :
    ∃ text kvs, outputText w o c s = .ok text ∧ Reads false value text (.obj kvs) ∧
      kvs.dget "@context" = some ctx ∧ kvs.dget "type" = some (.str (typeName c)) ∧
      (∀ q, Ordinary c q → argOf kw q = .none → kvs.dget q = none) ∧
      (∀ q, Ordinary c q → ∀ t, Shown w.env (fun n r => PyFloat value n r ∧ Finite r) (rowOf q) (argOf kw q) t → kvs.dget q = some t) ∧
      (∀ q ∈ propNames c, q = "totalItems" ∨ q = "startIndex" → (argOf kw q = .none → kvs.dget q = some (.int 0)) ∧
        ∀ n, argOf kw q = .int n → kvs.dget q = some (.int n)) ∧
      (∀ k, k ≠ "@context" → k ≠ "type" → ¬ Ordinary c k → ¬ (k ∈ propNames c ∧ (k = "totalItems" ∨ k = "startIndex")) → kvs.dget k = none) := by
  have hheld : ∀ q, ∃ x, q ∈ propNames c → q ≠ "__namespace__" → KeptAs w c ctx (argOf kw) q x ∧ (attrOf true c q).held s q = .ok x := by
    intro q
    by_cases hq : q ∈ propNames c ∧ q ≠ "__namespace__"
    · obtain ⟨x, h1, h2⟩ := held_given w hc hno ctx (argOf kw) kw hctx (fun _ _ _ => rfl) s h hq.1 hq.2
      exact ⟨x, fun _ _ => ⟨h1, h2⟩⟩
    · exact ⟨.none, fun h1 h2 => absurd ⟨h1, h2⟩ hq⟩
  choose x hx using hheld
  have hhas : ∀ q ∈ propNames c, q ≠ "__namespace__" → (attrOf true c q).held s q = .ok (x q) := fun q h1 h2 => (hx q h1 h2).2
  have hxc : x "acontext" = ctx.toVal := by
    have hk := (hx "acontext" (List.mem_cons_self ..) (by decide)).1
    generalize x "acontext" = y at hk
    cases hk with
    | context => rfl
    | type h => exact absurd h (by decide)
    | lost h =>
      have : ∀ c ∈ pkgClasses, "acontext" ∉ lostOf c := by decide +kernel
      exact absurd h (this c hc)
    | number h => exact absurd h (by decide)
    | kept _ _ _ _ _ _ h => exact absurd h (by decide)
  have htn : "type" ∈ propNames c := by
    have : ∀ c ∈ pkgClasses, "type" ∈ propNames c := by decide +kernel
    exact this c hc
  have hlost : ∀ c ∈ pkgClasses, ∀ q ∈ lostOf c, q ∉ ["acontext", "__namespace__", "type", "totalItems", "startIndex"] := by decide +kernel
  -- what is shown, by the kind of property
  have hord : ∀ q, Ordinary c q → ∃ y, StoredFor w.env w.link (rowOf q) (argOf kw q) y ∧ rowOf q ∈ propTable ∧
      shown w.env c x q = jsonView w.env ((rowOf q).form w.env y) := by
    intro q hq
    obtain ⟨h1, h2, h3⟩ := hq
    simp only [List.mem_cons, List.not_mem_nil, or_false, not_or] at h3
    obtain ⟨hk, hh⟩ := hx q h1 h3.2.1
    have hat := ordinary_row hc (q := q) ⟨h1, h2, by simp [h3]⟩
    have hrow := (attrOf_prop hat).1
    have hsh : shown w.env c x q = jsonView w.env ((rowOf q).form w.env (x q)) := by
      unfold shown fieldForm
      rw [hat, ← view_form]
    rw [hsh]
    generalize x q = y at hk
    cases hk with
    | context h => exact absurd h h3.1
    | type h => exact absurd h h3.2.2.1
    | lost h => exact absurd h h2
    | number h => rcases h with h | h; exacts [absurd h h3.2.2.2.1, absurd h h3.2.2.2.2]
    | kept r y hr hn hs =>
      rw [← Readme.row_unique r hr, hn] at hs
      exact ⟨y, hs, hrow, rfl⟩
  have hnone : ∀ q, Ordinary c q → argOf kw q = .none → shown w.env c x q = .none := by
    intro q hq hv
    obtain ⟨y, hs, hr, hy⟩ := hord q hq
    rw [hv] at hs
    rw [hy, Readme.stored_none hs]
    unfold PropRow.form
    cases (rowOf q).json <;> rfl
  have hnum : ∀ q ∈ propNames c, q = "totalItems" ∨ q = "startIndex" → shown w.env c x q = jsonView w.env (asLists (orZero (argOf kw q))) := by
    intro q hq hc'
    have hns : q ≠ "__namespace__" := by rcases hc' with rfl | rfl <;> decide
    obtain ⟨hk, -⟩ := hx q hq hns
    have hd : ∀ c ∈ pkgClasses, ∀ q ∈ propNames c, q = "totalItems" ∨ q = "startIndex" → isRow true c q (rowOf q) = true ∧ (rowOf q).json = .default := by
      decide +kernel
    obtain ⟨hd1, hd2⟩ := hd c hc q hq hc'
    have hsh : shown w.env c x q = jsonView w.env (x q) := by
      unfold shown fieldForm
      rw [isRow_eq hd1]
      show (rowOf q).form w.env _ = _
      unfold PropRow.form
      rw [hd2]
    rw [hsh]
    generalize x q = y at hk
    cases hk with
    | context h => subst h; exact absurd hc' (by decide)
    | type h => subst h; exact absurd hc' (by decide)
    | lost h => have := hlost c hc q h; rcases hc' with rfl | rfl <;> exact absurd (by simp) this
    | number h => rfl
    | kept _ _ _ _ _ _ h => rcases hc' with rfl | rfl <;> exact absurd (by simp) h
  have hnumv : ∀ q ∈ propNames c, q = "totalItems" ∨ q = "startIndex" → ∃ n : Int, shown w.env c x q = .int n ∧
      (argOf kw q = .none → n = 0) ∧ ∀ m, argOf kw q = .int m → n = m := by
    intro q hq hc'
    rw [hnum q hq hc']
    rcases hn q hq hc' with hv | ⟨n, hv⟩
    · rw [hv]; exact ⟨0, rfl, fun _ => rfl, by simp⟩
    · rw [hv]
      refine ⟨n, ?_, by simp, fun m hm => by injection hm⟩
      unfold Props.orZero
      by_cases h0 : n = 0
      · subst h0; rfl
      · have : AS.truthy (.int n) = true := by simp [AS.truthy, h0]
        rw [if_pos this]; rfl
  have htype : shown w.env c x "type" = .str (typeName c) := by
    obtain ⟨hk, -⟩ := hx "type" htn (by decide)
    unfold shown fieldForm
    rw [type_attr hc hno]
    generalize x "type" = y at hk
    cases hk with
    | context h => exact absurd h (by decide)
    | type h => rfl
    | lost h => exact absurd (by simp) (hlost c hc _ h)
    | number h => exact absurd h (by decide)
    | kept _ _ _ _ _ _ h => exact absurd h (by decide)
  have hlo : ∀ q ∈ lostOf c, q ∈ propNames c ∧ shown w.env c x q = .none := by
    intro q hq
    obtain ⟨f1, f2, -⟩ := lost_facts c hc q hq
    have f3 := hlost c hc q hq
    simp only [List.mem_cons, List.not_mem_nil, or_false, not_or] at f3
    refine ⟨f1, ?_⟩
    obtain ⟨hk, -⟩ := hx q f1 f3.2.1
    unfold shown fieldForm
    rw [isRow_eq f2]
    generalize x q = y at hk
    cases hk with
    | context h => exact absurd h f3.1
    | type h => exact absurd h f3.2.2.1
    | lost h =>
      show (rowOf q).form w.env _ = _
      unfold PropRow.form
      cases (rowOf q).json <;> rfl
    | number h => rcases h with h | h; exacts [absurd h f3.2.2.2.1, absurd h f3.2.2.2.2]
    | kept _ _ _ _ _ h => exact absurd hq h
  have hshc : shown w.env c x "acontext" = ctx.toVal := by
    unfold shown fieldForm
    rw [isPlain_eq (context_plain c hc), hxc]
    exact json_view w.env hp
  have kinds : ∀ q ∈ propNames c, q ≠ "acontext" → q ≠ "__namespace__" → q = "type" ∨ Ordinary c q ∨ (q = "totalItems" ∨ q = "startIndex") ∨ q ∈ lostOf c := by
    intro q h1 h2 h3
    by_cases h4 : q = "type"
    · exact .inl h4
    · by_cases h5 : q = "totalItems" ∨ q = "startIndex"
      · exact .inr (.inr (.inl h5))
      · by_cases h6 : q ∈ lostOf c
        · exact .inr (.inr (.inr h6))
        · simp only [not_or] at h5
          exact .inr (.inl ⟨h1, h6, by simp [h2, h3, h4, h5.1, h5.2]⟩)
  -- the text
  obtain ⟨d, hd, d1, d2, d3, d4⟩ := output_tree w hc s x ctx hp hxc hhas
  have hf := json_fields w c s x hhas
  have hw : ∀ f ∈ ((propNames c).map fun q => (q, if q = "__namespace__" then .none else shown w.env c x q) : List (String × Val)),
      Writable (fun n r => PyFloat value n r ∧ Finite r) f.2 := by
    intro f hfm
    obtain ⟨q, hq, rfl⟩ := List.mem_map.1 hfm
    simp only
    split_ifs with hns
    · exact .none
    · by_cases h1 : q = "acontext"
      · subst h1; rw [hshc]; exact hpw
      · rcases kinds q hq h1 hns with rfl | h2 | h2 | h2
        · rw [htype]; exact .str _
        · rcases hg q h2 with hv | ⟨t, ht⟩
          · rw [hnone q h2 hv]; exact .none
          · obtain ⟨y, hs, hr, hy⟩ := hord q h2
            rw [hy]
            exact (shown_written hmk hdt hr ht hs).2.2
        · obtain ⟨n, hv, -⟩ := hnumv q hq h2
          rw [hv]; exact .int _
        · rw [(hlo q h2).2]; exact .none
  have ho : outputText w o c s = .ok (jsonText o {} ((propNames c).map fun q => (q, if q = "__namespace__" then .none else shown w.env c x q))) := by
    unfold outputText
    rw [hf]
  have hdd : d = data {} ((propNames c).map fun q => (q, if q = "__namespace__" then .none else shown w.env c x q)) := by
    unfold output at hd
    rw [hf] at hd
    exact (Except.ok.inj hd).symm
  have hj := (json_reads_back_partial value o {} rfl ((propNames c).map fun q => (q, if q = "__namespace__" then .none else shown w.env c x q))).2 hw
  rw [← hdd] at hj
  refine ⟨_, toTreeFields d, ho, hj, ?_, ?_, fun q hq hv => ?_, fun q hq t ht => ?_, fun q hq h2 => ?_, fun k k1 k2 k3 k4 => ?_⟩
  · rw [dget_toTreeFields, d1]
    exact congrArg some (toTree_toVal ctx)
  · rw [d4 "type" htn (by decide) (by decide), htype]; rfl
  · have h3 := hq.2.2
    simp only [List.mem_cons, List.not_mem_nil, or_false, not_or] at h3
    rw [d4 q hq.1 h3.1 h3.2.1, hnone q hq hv]; rfl
  · have h3 := hq.2.2
    simp only [List.mem_cons, List.not_mem_nil, or_false, not_or] at h3
    obtain ⟨y, hs, hr, hy⟩ := hord q hq
    obtain ⟨g1, g2, -⟩ := shown_written hmk hdt hr ht hs
    rw [d4 q hq.1 h3.1 h3.2.1, hy]
    unfold treeOf
    rw [g1, g2]; rfl
  · have h3 : q ≠ "acontext" ∧ q ≠ "__namespace__" := by rcases h2 with rfl | rfl <;> decide
    obtain ⟨n, hv, n1, n2⟩ := hnumv q hq h2
    rw [d4 q hq h3.1 h3.2, hv]
    refine ⟨fun h => ?_, fun m h => ?_⟩
    · rw [n1 h]; rfl
    · rw [n2 m h]; rfl
  · by_cases hk : k ∈ propNames c
    · by_cases e1 : k = "acontext"
      · subst e1; rw [dget_toTreeFields, d2]; rfl
      · by_cases e2 : k = "__namespace__"
        · subst e2; rw [dget_toTreeFields, d3]; rfl
        · rcases kinds k hk e1 e2 with h | h | h | h
          · exact absurd h k2
          · exact absurd h k3
          · exact absurd ⟨hk, h⟩ k4
          · rw [d4 k hk e1 e2, (hlo k h).2]; rfl
    · rw [dget_toTreeFields, Readme.output_keys w hc s hd hk k1]; rfl

/-- A new object as a value: it has a value for each of its properties. -/
theorem new_value (w : World J) {c : String} (hc : c ∈ pkgClasses) (hno : c ∉ ["Object", "Link"]) (kw : List (String × Val)) (ctx : Tree)
    (hctx : argOf kw "acontext" = ctx.toVal) (s : Slots) (h : construct w true c kw = .ok s) :
    ∃ x, objVal c s = objectOf c x ∧ x "acontext" = ctx.toVal ∧ ∀ q ∈ lostOf c, x q = .none := by
  have hheld : ∀ q, ∃ x, q ∈ propNames c → q ≠ "__namespace__" → KeptAs w c ctx (argOf kw) q x ∧ (attrOf true c q).held s q = .ok x := by
    intro q
    by_cases hq : q ∈ propNames c ∧ q ≠ "__namespace__"
    · obtain ⟨x, h1, h2⟩ := held_given w hc hno ctx (argOf kw) kw hctx (fun _ _ _ => rfl) s h hq.1 hq.2
      exact ⟨x, fun _ _ => ⟨h1, h2⟩⟩
    · exact ⟨.none, fun h1 h2 => absurd ⟨h1, h2⟩ hq⟩
  choose x hx using hheld
  have hlost : ∀ c ∈ pkgClasses, ∀ q ∈ lostOf c, q ∉ ["acontext", "__namespace__", "type", "totalItems", "startIndex"] := by decide +kernel
  refine ⟨x, objVal_eq c s x (no_namespace w hc _ s h) fun q h1 h2 => (hx q h1 h2).2, ?_, fun q hq => ?_⟩
  · have hk := (hx "acontext" (List.mem_cons_self ..) (by decide)).1
    generalize x "acontext" = y at hk
    cases hk with
    | context => rfl
    | type h => exact absurd h (by decide)
    | lost h => exact absurd (by simp) (hlost c hc _ h)
    | number h => exact absurd h (by decide)
    | kept _ _ _ _ _ _ h => exact absurd h (by decide)
  · obtain ⟨f1, f2, -⟩ := lost_facts c hc q hq
    have f3 := hlost c hc q hq
    simp only [List.mem_cons, List.not_mem_nil, or_false, not_or] at f3
    obtain ⟨hk, -⟩ := hx q f1 f3.2.1
    generalize x q = y at hk
    cases hk with
    | context h => exact absurd h f3.1
    | type h => exact absurd h f3.2.2.1
    | lost h => rfl
    | number h => rcases h with h | h; exacts [absurd h f3.2.2.2.1, absurd h f3.2.2.2.2]
    | kept _ _ _ _ _ h => exact absurd hq h

/-- **C142 (objects in objects).** A new object that is given to another one is written there as `data()` writes it on its own, without the context. -/
theorem nested_alone (w : World J) {c : String} (hc : c ∈ pkgClasses) (hno : c ∉ ["Object", "Link"]) (kw : List (String × Val)) (ctx : Tree)
    (hp : Plain ctx.toVal) (hctx : argOf kw "acontext" = ctx.toVal) (s : Slots) (h : construct w true c kw = .ok s) :
    ∃ x d kvs, objVal c s = objectOf c x ∧ output w c s = .ok d ∧ toTree (handler (jsonView w.env (objVal c s))) = .obj kvs ∧
      kvs.dget "@context" = none ∧ d.dget "@context" = some ctx.toVal ∧ ∀ q ∈ propNames c, kvs.dget q = (toTreeFields d).dget q := by
  obtain ⟨x, hx, hxc, -⟩ := new_value w hc hno kw ctx hctx s h
  have hhas : ∀ q ∈ propNames c, q ≠ "__namespace__" → (attrOf true c q).held s q = .ok (x q) := (objVal_objectOf hx (names_nodup c hc)).2
  obtain ⟨d, hd, d1, d2, d3, d4⟩ := output_tree w hc s x ctx hp hxc hhas
  obtain ⟨kvs, k0, k1, k2, k3, k4⟩ := nested_tree w.env hc x
  refine ⟨x, d, kvs, hx, hd, hx ▸ k0, k1, d1, fun q hq => ?_⟩
  by_cases e1 : q = "acontext"
  · subst e1; rw [k2, dget_toTreeFields, d2]; rfl
  · by_cases e2 : q = "__namespace__"
    · subst e2; rw [k3, dget_toTreeFields, d3]; rfl
    · rw [k4 q hq e1 e2, d4 q hq e1 e2]

/-- **C142 (counterexample).** Whatever is given as `context` is not written, for any class; nor are the properties constructors lose (the items of
collections, the id of a Mention, the former type of a Tombstone). -/
theorem not_shown_counterexample (w : World J) {c : String} (hc : c ∈ pkgClasses) (hno : c ∉ ["Object", "Link"]) (kw : List (String × Val)) (ctx : Tree)
    (hp : Plain ctx.toVal) (hctx : argOf kw "acontext" = ctx.toVal) (s : Slots) (h : construct w true c kw = .ok s) :
    "context" ∈ paramList c ∧ ∃ d, output w c s = .ok d ∧ d.dget "context" = none ∧ ∀ q ∈ lostOf c, d.dget q = none := by
  have hf : ∀ c ∈ pkgClasses, "context" ∈ paramList c ∧ "context" ∉ propNames c ∧ ∀ q ∈ lostOf c, q ≠ "acontext" ∧ q ≠ "__namespace__" := by decide +kernel
  obtain ⟨f1, f2, f3⟩ := hf c hc
  obtain ⟨x, hx, hxc, hxl⟩ := new_value w hc hno kw ctx hctx s h
  obtain ⟨d, hd, -, -, -, d4⟩ := output_tree w hc s x ctx hp hxc (objVal_objectOf hx (names_nodup c hc)).2
  refine ⟨f1, d, hd, Readme.output_keys w hc s hd f2 (by decide), fun q hq => ?_⟩
  obtain ⟨g1, g2, -⟩ := lost_facts c hc q hq
  have := d4 q g1 (f3 q hq).1 (f3 q hq).2
  have hs : shown w.env c x q = .none := by
    unfold shown fieldForm
    rw [isRow_eq g2, hxl q hq]
    show (rowOf q).form w.env _ = _
    unfold PropRow.form
    cases (rowOf q).json <;> rfl
  rw [hs, dget_toTreeFields] at this
  cases hd' : d.dget q with
  | none => rfl
  | some y => rw [hd'] at this; exact absurd this (by simp [treeOf, Val.isNone])

/-! ### A case -/

/-- `Note(id=…, content=…, published="2024-02-29T12:30:00Z", attributedTo="http://x.org/joe", to=["http://x.org/ann", "http://x.org/joe"])` -/
def exArgs : List (String × Val) := [("id", .str "http://x.org/1"), ("content", .str "hi"), ("published", .str "2024-02-29T12:30:00Z"),
  ("attributedTo", .str "http://x.org/joe"), ("to", .list [.str "http://x.org/ann", .str "http://x.org/joe"])]

theorem ex_made : (construct backWorld true "Note" exArgs).isOk = true := by decide +kernel

/-- The hypotheses of `json_of_arguments_partial` hold for it, and its text is as expected. -/
example (o : Layout) : ∃ s text kvs, construct backWorld true "Note" exArgs = .ok s ∧ outputText backWorld o "Note" s = .ok text ∧
    Reads false asWritten text (.obj kvs) ∧ kvs.dget "type" = some (.str "Note") ∧ kvs.dget "content" = some (.str "hi") ∧
    kvs.dget "published" = some (.str "2024-02-29T12:30:00Z") ∧ kvs.dget "attributedTo" = some (.str "http://x.org/joe") ∧
    kvs.dget "to" = some (.arr [.str "http://x.org/ann", .str "http://x.org/joe"]) ∧ kvs.dget "summary" = none := by
  obtain ⟨s, hs⟩ : ∃ s, construct backWorld true "Note" exArgs = .ok s := by
    cases h : construct backWorld true "Note" exArgs with
    | ok s => exact ⟨s, rfl⟩
    | error e => have := ex_made; rw [h] at this; cases this
  have hfacts : (∀ q ∈ ["id", "content", "attributedTo", "to"], (rowOf q).parse = false) ∧ (rowOf "published").parse = true ∧
      (∀ q ∈ ["id", "content", "published", "attributedTo", "to", "summary"], q ∈ propNames "Note" ∧ q ∉ lostOf "Note") ∧ "Note" ∈ pkgClasses ∧
      typeName "Note" = "Note" ∧ ∀ q ∈ propNames "Note", q ∉ ["acontext", "id", "content", "published", "attributedTo", "to"] → exArgs.dget q = none := by
    decide +kernel
  obtain ⟨f1, f2, f3, f4, f5, f6⟩ := hfacts
  have hdate : parseDatetime (.str "2024-02-29T12:30:00Z".toList) = .ok (.dt leapNoon) := by decide +kernel
  have hdt : String.ofList (datetimeStr leapNoon) = "2024-02-29T12:30:00Z" := by decide +kernel
  have s1 : Shown backEnv (fun n r => PyFloat asWritten n r ∧ Finite r) (rowOf "content") (argOf exArgs "content") (.str "hi") :=
    .one _ _ (f1 _ (by simp)) (.text _)
  have s2 : Shown backEnv (fun n r => PyFloat asWritten n r ∧ Finite r) (rowOf "published") (argOf exArgs "published") (.str "2024-02-29T12:30:00Z") := by
    have := Shown.dateText (env := backEnv) (P := fun n r => PyFloat asWritten n r ∧ Finite r) "2024-02-29T12:30:00Z" leapNoon f2 hdate rfl
    rw [hdt] at this; exact this
  have s3 : Shown backEnv (fun n r => PyFloat asWritten n r ∧ Finite r) (rowOf "attributedTo") (argOf exArgs "attributedTo") (.str "http://x.org/joe") :=
    .one _ _ (f1 _ (by simp)) (.text _)
  have s4 : Shown backEnv (fun n r => PyFloat asWritten n r ∧ Finite r) (rowOf "to") (argOf exArgs "to")
      (.arr [.str "http://x.org/ann", .str "http://x.org/joe"]) := .list _ _ (.cons (.text _) (.cons (.text _) .nil))
  have s5 : Shown backEnv (fun n r => PyFloat asWritten n r ∧ Finite r) (rowOf "id") (argOf exArgs "id") (.str "http://x.org/1") :=
    .one _ _ (f1 _ (by simp)) (.text _)
  have ord : ∀ q ∈ ["id", "content", "published", "attributedTo", "to", "summary"], Ordinary "Note" q := fun q hq =>
    ⟨(f3 q hq).1, (f3 q hq).2, by simp only [List.mem_cons, List.not_mem_nil, or_false] at hq; rcases hq with rfl | rfl | rfl | rfl | rfl | rfl <;> decide⟩
  obtain ⟨text, kvs, h1, h2, -, h4, h5, h6, -⟩ := json_of_arguments_partial asWritten backWorld
    (linkCtor_makes_links backEnv onePage 0 (by decide +kernel)) (by decide +kernel) f4 (by decide) exArgs asCtx (.str _) (.str _) rfl (by
      intro q hq
      by_cases hm : q ∈ ["acontext", "id", "content", "published", "attributedTo", "to"]
      · simp only [List.mem_cons, List.not_mem_nil, or_false] at hm
        rcases hm with rfl | rfl | rfl | rfl | rfl | rfl
        · exact absurd (by simp) hq.2.2
        exacts [.inr ⟨_, s5⟩, .inr ⟨_, s1⟩, .inr ⟨_, s2⟩, .inr ⟨_, s3⟩, .inr ⟨_, s4⟩]
      · left
        unfold argOf
        rw [f6 q hq.1 hm, if_neg]; rfl
        rintro rfl; exact hm (by simp))
    (fun q hq h => absurd h (no_numbers q hq)) s hs o
  refine ⟨s, text, kvs, hs, h1, h2, by rw [h4, f5], h6 _ (ord _ (by simp)) _ s1, h6 _ (ord _ (by simp)) _ s2, h6 _ (ord _ (by simp)) _ s3,
    h6 _ (ord _ (by simp)) _ s4, h5 _ (ord _ (by simp)) rfl⟩

end Verif.Props.JsonArgs
