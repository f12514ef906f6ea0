import Verif.AS.Link

/-!
# Links (C67, C68)
-/
namespace Verif.Props
open Verif Verif.Jsonld Verif.AS

/-! ### Specification -/

/-- What `create_link` may make of a value: a string stays or becomes a Link with that address; a list, tuple or set
becomes a list of the same length whose items correspond; a dictionary stays or becomes a Link made from it; everything
else stays. -/
inductive LinkedFrom (mk : Ctor) : Val → Val → Prop where
  | str (s : String) : LinkedFrom mk (.str s) (.str s)
  | url (s : String) (l : Val) (h : mk [("href", .str s)] = .ok l) : LinkedFrom mk (.str s) l
  | list (xs ys : List Val) (h : List.Forall₂ (LinkedFrom mk) xs ys) : LinkedFrom mk (.list xs) (.list ys)
  | tuple (xs ys : List Val) (h : List.Forall₂ (LinkedFrom mk) xs ys) : LinkedFrom mk (.tuple xs) (.list ys)
  | set (xs ys : List Val) (h : List.Forall₂ (LinkedFrom mk) xs ys) : LinkedFrom mk (.set xs) (.list ys)
  | dict (kvs : List (Key × Val)) : LinkedFrom mk (.dict kvs) (.dict kvs)
  | dictLink (kvs : List (Key × Val)) (l : Val) (ks : List (String × Val)) (hk : kvs = ks.map fun p => (.str p.1, p.2))
      (h : mk ks = .ok l) : LinkedFrom mk (.dict kvs) l
  | other (v : Val) (h : ∀ s, v ≠ .str s) (h' : ∀ kvs, v ≠ .dict kvs) (hl : ∀ xs, v ≠ .list xs) (ht : ∀ xs, v ≠ .tuple xs)
      (hs : ∀ xs, v ≠ .set xs) : LinkedFrom mk v v

/-- The Link class makes Links with the address it is given. -/
def MakesLinks (env : Env) (mk : Ctor) : Prop := ∀ s, ∃ l, mk [("href", .str s)] = .ok l ∧ isLink env l = true ∧ hrefOf l = .str s

/-- Text, None and numbers: no Link and no list. -/
def NoLink (env : Env) (v : Val) : Prop := isLink env v = false ∧ ∀ xs, v ≠ .list xs

/-! ### C67 -/

theorem hrefItem_link {env : Env} {v : Val} (h : isLink env v = true) : hrefItem env v = hrefOf v := by
  unfold hrefItem; rw [if_pos h]

theorem hrefItem_other {env : Env} {v : Val} (h : isLink env v = false) : hrefItem env v = v := by
  unfold hrefItem; rw [if_neg (by simp [h])]

/-- C67: a Link is reduced to its href. -/
theorem hrefOnly_link {env : Env} {v : Val} (h : isLink env v = true) : hrefOnly env v = hrefOf v := by
  cases v with
  | list xs => cases h
  | _ => exact hrefItem_link h

/-- C67: the items of a list are reduced one by one; length and order stay. -/
theorem hrefOnly_list (env : Env) (xs : List Val) : ∃ ys : List Val, hrefOnly env (.list xs) = .list ys ∧ ys.length = xs.length ∧
    ∀ (i : Nat) v, xs[i]? = some v → (isLink env v = true → ys[i]? = some (hrefOf v)) ∧ (isLink env v = false → ys[i]? = some v) := by
  refine ⟨xs.map (hrefItem env), rfl, by simp, fun i v hi => ⟨fun h => ?_, fun h => ?_⟩⟩
  · rw [List.getElem?_map, hi, Option.map_some, hrefItem_link h]
  · rw [List.getElem?_map, hi, Option.map_some, hrefItem_other h]

/-- C67: everything else is kept. -/
theorem hrefOnly_other {env : Env} {v : Val} (h : NoLink env v) : hrefOnly env v = v := by
  cases v with
  | list xs => exact absurd rfl (h.2 xs)
  | _ => exact hrefItem_other h.1

/-- C67: reducing twice is reducing once, if no Link has a Link or a list with Links as its href. -/
theorem hrefOnly_idem_partial {env : Env} {v : Val} (h1 : isLink env v = true → NoLink env (hrefOf v))
    (h2 : ∀ xs, v = .list xs → ∀ x ∈ xs, isLink env x = true → NoLink env (hrefOf x)) :
    hrefOnly env (hrefOnly env v) = hrefOnly env v := by
  have item : ∀ x, (isLink env x = true → NoLink env (hrefOf x)) → hrefItem env (hrefItem env x) = hrefItem env x := by
    intro x hx
    cases hl : isLink env x with
    | true => rw [hrefItem_link hl]; exact hrefItem_other (hx hl).1
    | false => rw [hrefItem_other hl, hrefItem_other hl]
  by_cases hv : ∃ xs, v = .list xs
  · obtain ⟨xs, rfl⟩ := hv
    show Val.list ((xs.map (hrefItem env)).map (hrefItem env)) = Val.list (xs.map (hrefItem env))
    congr 1
    rw [List.map_map]
    exact List.map_congr_left fun x hx => item x (h2 xs rfl x hx)
  · cases hl : isLink env v with
    | true => rw [hrefOnly_link hl]; exact hrefOnly_other (h1 hl)
    | false => rw [hrefOnly_other ⟨hl, fun xs e => hv ⟨xs, e⟩⟩, hrefOnly_other ⟨hl, fun xs e => hv ⟨xs, e⟩⟩]

/-- C67: without that condition the claim is false: an unpackaged Link may have a Link as its href. -/
theorem hrefOnly_idem_counterexample : ∃ (env : Env) (v : Val),
    hrefOnly env v = .obj "Link" [("href", .str "http://a")] ∧ hrefOnly env (hrefOnly env v) = .str "http://a" :=
  ⟨⟨fun c => [c], fun _ => true, fun _ => .ok false, fun _ => none, fun _ => "", fun _ => none⟩,
    .obj "Link" [("href", .obj "Link" [("href", .str "http://a")])], by rfl, by rfl⟩

theorem callWith_ok {mk : Ctor} {kvs : List (Key × Val)} {l : Val} (h : callWith mk kvs = .ok l) :
    ∃ ks : List (String × Val), kvs = ks.map (fun p => (.str p.1, p.2)) ∧ mk ks = .ok l := by
  unfold callWith at h
  split_ifs at h with ha
  refine ⟨_, ?_, h⟩
  rw [List.map_map]
  rw [List.all_eq_true] at ha
  conv_lhs => rw [← List.map_id kvs]
  refine List.map_congr_left fun p hp => ?_
  have := ha p hp
  obtain ⟨k, v⟩ := p
  cases k with
  | str s => rfl
  | other r => cases this

mutual
/-- C67: what `create_link` returns, for every value, however deeply nested. -/
theorem createLink_spec (env : Env) (mk : Ctor) : ∀ (v w : Val), createLink env mk v = .ok w → LinkedFrom mk v w
  | .str s, w, h => by
    rw [createLink] at h
    cases hl : linkable env s with
    | error e => rw [hl] at h; cases h
    | ok b =>
      rw [hl] at h
      cases b with
      | true => exact .url s w h
      | false => injection h with h; subst h; exact .str s
  | .dict kvs, w, h => by
    rw [createLink] at h
    cases hl : linkDict env kvs with
    | error e => rw [hl] at h; cases h
    | ok b =>
      rw [hl] at h
      cases b with
      | true => obtain ⟨ks, hk, hm⟩ := callWith_ok h; exact .dictLink kvs w ks hk hm
      | false => injection h with h; subst h; exact .dict kvs
  | .list xs, w, h => by
    rw [createLink] at h
    cases hl : createLinks env mk xs with
    | error e => rw [hl] at h; cases h
    | ok ys => rw [hl] at h; injection h with h; subst h; exact .list xs ys (createLinks_spec env mk xs ys hl)
  | .tuple xs, w, h => by
    rw [createLink] at h
    cases hl : createLinks env mk xs with
    | error e => rw [hl] at h; cases h
    | ok ys => rw [hl] at h; injection h with h; subst h; exact .tuple xs ys (createLinks_spec env mk xs ys hl)
  | .set xs, w, h => by
    rw [createLink] at h
    cases hl : createLinks env mk xs with
    | error e => rw [hl] at h; cases h
    | ok ys => rw [hl] at h; injection h with h; subst h; exact .set xs ys (createLinks_spec env mk xs ys hl)
  | .none, w, h => by
    injection h with h; subst h; exact .other _ (by simp) (by simp) (by simp) (by simp) (by simp)
  | .bool _, w, h => by
    injection h with h; subst h; exact .other _ (by simp) (by simp) (by simp) (by simp) (by simp)
  | .int _, w, h => by
    injection h with h; subst h; exact .other _ (by simp) (by simp) (by simp) (by simp) (by simp)
  | .float _ _, w, h => by
    injection h with h; subst h; exact .other _ (by simp) (by simp) (by simp) (by simp) (by simp)
  | .iter _ _, w, h => by
    injection h with h; subst h; exact .other _ (by simp) (by simp) (by simp) (by simp) (by simp)
  | .obj _ _, w, h => by
    injection h with h; subst h; exact .other _ (by simp) (by simp) (by simp) (by simp) (by simp)
  | .other _ _, w, h => by
    injection h with h; subst h; exact .other _ (by simp) (by simp) (by simp) (by simp) (by simp)
theorem createLinks_spec (env : Env) (mk : Ctor) : ∀ (xs ys : List Val), createLinks env mk xs = .ok ys →
    List.Forall₂ (LinkedFrom mk) xs ys
  | [], ys, h => by rw [createLinks] at h; injection h with h; subst h; exact .nil
  | x :: xs, ys, h => by
    rw [createLinks] at h
    cases h1 : createLink env mk x with
    | error e => rw [h1] at h; cases h
    | ok y =>
      rw [h1] at h
      cases h2 : createLinks env mk xs with
      | error e => rw [h2] at h; cases h
      | ok zs =>
        rw [h2] at h; injection h with h; subst h
        exact .cons (createLink_spec env mk x y h1) (createLinks_spec env mk xs zs h2)
end

/-- C67: which strings become Links. -/
theorem createLink_str {env : Env} {mk : Ctor} (hmk : MakesLinks env mk) (s : String) :
    (linkable env s = .ok true → ∃ l, createLink env mk (.str s) = .ok l ∧ isLink env l = true ∧ hrefOf l = .str s) ∧
    (linkable env s = .ok false → createLink env mk (.str s) = .ok (.str s)) := by
  constructor
  · intro h
    obtain ⟨l, h1, h2⟩ := hmk s
    exact ⟨l, by rw [createLink, h]; exact h1, h2⟩
  · intro h; rw [createLink, h]

/-- C67: a string is made a Link exactly if it is a valid URL or, with or without "acct:", a valid e-mail address. -/
theorem linkable_iff (env : Env) (s : String) (b : Bool) : linkable env s = .ok b ↔
    (validateUrl env.bracketOk false s.toList = .ok true ∧ b = true) ∨
    (validateUrl env.bracketOk false s.toList = .ok false ∧
      env.email (if "acct:".toList.isPrefixOf s.toList then String.ofList (s.toList.drop 5) else s) = .ok b) := by
  unfold linkable
  cases h : validateUrl env.bracketOk false s.toList with
  | error e => simp
  | ok u =>
    cases u with
    | true => constructor
              · intro e; injection e with e; exact Or.inl ⟨rfl, e.symm⟩
              · rintro (⟨-, rfl⟩ | ⟨e, -⟩)
                · rfl
                · cases e
    | false => constructor
               · intro e; exact Or.inr ⟨rfl, e⟩
               · rintro (⟨e, -⟩ | ⟨-, e⟩)
                 · cases e
                 · exact e

/-- C67: reducing after making Links gives back every string, alone or in a list. -/
theorem href_of_created_partial {env : Env} {mk : Ctor} (hmk : MakesLinks env mk) :
    (∀ s w, createLink env mk (.str s) = .ok w → hrefOnly env w = .str s) ∧
    ∀ (ss : List String) w, createLink env mk (.list (ss.map .str)) = .ok w → hrefOnly env w = .list (ss.map .str) := by
  have one : ∀ s w, createLink env mk (.str s) = .ok w → hrefItem env w = .str s ∧ hrefOnly env w = .str s := by
    intro s w h
    have hs := createLink_spec env mk _ _ h
    obtain ⟨l, hl, h1, h2⟩ := hmk s
    generalize hv : Val.str s = v at hs
    cases hs with
    | str s' => injection hv with hv; subst hv; exact ⟨rfl, rfl⟩
    | url s' l' h' =>
      injection hv with hv; subst hv
      rw [hl] at h'; injection h' with h'; subst h'
      exact ⟨by rw [hrefItem_link h1, h2], by rw [hrefOnly_link h1, h2]⟩
    | other v h' => exact absurd hv.symm (h' s)
    | list | tuple | set | dict | dictLink => cases hv
  refine ⟨fun s w h => (one s w h).2, fun ss w h => ?_⟩
  rw [createLink] at h
  cases hl : createLinks env mk (ss.map Val.str) with
  | error e => rw [hl] at h; cases h
  | ok ys =>
    rw [hl] at h; injection h with h; subst h
    have : ys.map (hrefItem env) = ss.map .str := by
      induction ss generalizing ys with
      | nil => rw [List.map_nil, createLinks] at hl; injection hl with hl; subst hl; rfl
      | cons s ss ih =>
        rw [List.map_cons, createLinks] at hl
        cases h1 : createLink env mk (.str s) with
        | error e => rw [h1] at hl; cases hl
        | ok y =>
          rw [h1] at hl
          cases h2 : createLinks env mk (ss.map .str) with
          | error e => rw [h2] at hl; cases hl
          | ok zs =>
            rw [h2] at hl; injection hl with hl; subst hl
            rw [List.map_cons, List.map_cons, (one s y h1).1, ih zs h2]
    show Val.list _ = _
    rw [this]

/-- An environment with one class of Links and two mail addresses, and its Link class. -/
def linkEnv : Env :=
  ⟨fun c => if c = "Mention" then ["Mention", "Link", "object"] else [c, "object"], fun _ => true, fun s => .ok (s == "joe@example.com"),
    fun _ => none, fun _ => "", fun _ => none⟩

/-- `Link(href=...)` -/
def plainLink : Ctor := fun kw => .ok (.obj "Link" kw)

example : MakesLinks linkEnv plainLink := fun _ => ⟨_, rfl, rfl, rfl⟩

example : createLink linkEnv plainLink (.tuple [.str "acct:joe@example.com", .str "joe", .list [.str "http://x.org/"], .int 3]) =
    .ok (.list [.obj "Link" [("href", .str "acct:joe@example.com")], .str "joe", .list [.obj "Link" [("href", .str "http://x.org/")]], .int 3]) := by
  rfl

/-- C67: lists in lists are not reduced (and come out as Link objects). -/
theorem href_nested_counterexample : ∃ w, createLink linkEnv plainLink (.list [.list [.str "http://x.org/"]]) = .ok w ∧
    hrefOnly linkEnv w = .list [.list [.obj "Link" [("href", .str "http://x.org/")]]] := ⟨_, by rfl, by rfl⟩

/-! ### C68 -/

variable {J : Type}

/-- C68: whatever the network and the parser do, reading gives the stored value or an object that was fetched and parsed
successfully. -/
theorem expand_spec (w : Web J) (v : Val) : (w.expand v).1 = v ∨
    ∃ j f x, w.fetch (hrefOf v) = .ok j ∧ w.engine v = some f ∧ f j = .ok x ∧ AS.truthy x = true ∧ (w.expand v).1 = x := by
  unfold Web.expand Web.get
  by_cases ha : w.asks v = true
  · rw [if_pos ha]
    cases hf : w.fetch (hrefOf v) with
    | error e => exact Or.inl rfl
    | ok j =>
      simp only
      cases hm : w.make v j with
      | none => exact Or.inl rfl
      | some x =>
        simp only
        by_cases ht : AS.truthy x = true
        · rw [if_pos ht]
          right
          unfold Web.make at hm
          cases he : w.engine v with
          | none => rw [he] at hm; cases hm
          | some f =>
            rw [he] at hm
            simp only at hm
            cases hj : f j with
            | error e => rw [hj] at hm; cases hm
            | ok y => rw [hj] at hm; injection hm with hm; subst hm; exact ⟨j, f, y, rfl, rfl, hj, ht, rfl⟩
        · rw [if_neg ht]; exact Or.inl rfl
  · rw [if_neg ha]; exact Or.inl rfl

/-- C68: a Link of the package is replaced by its object if fetching and parsing work, and kept if either fails. -/
theorem expand_link (w : Web J) (v : Val) (f : J → Outcome Val) (hn : w.nsOf v = some w.linkNs) (hp : w.packaged v = true)
    (hh : AS.truthy (hrefOf v) = true) (ht : AS.truthy v = true) (hf : w.engineOf v = some f) :
    (∀ j x, w.fetch (hrefOf v) = .ok j → f j = .ok x → AS.truthy x = true → (w.expand v).1 = x) ∧
    (∀ e, w.fetch (hrefOf v) = .error e → (w.expand v).1 = v) ∧
    (∀ j e, w.fetch (hrefOf v) = .ok j → f j = .error e → (w.expand v).1 = v) := by
  have ha : w.asks v = true := by unfold Web.asks; simp [hn, hp, hh, ht]
  have he : w.engine v = some f := by unfold Web.engine; rw [if_pos hp, hf]
  refine ⟨fun j x h1 h2 h3 => ?_, fun e h1 => ?_, fun j e h1 h2 => ?_⟩
  · simp [Web.expand, Web.get, ha, h1, Web.make, he, h2, h3]
  · simp [Web.expand, Web.get, ha, h1]
  · simp [Web.expand, Web.get, ha, h1, Web.make, he, h2]

/-- C68: no engine: the link is kept. -/
theorem expand_no_engine (w : Web J) (v : Val) (he : w.engine v = none) : (w.expand v).1 = v := by
  rcases expand_spec w v with h | ⟨j, f, x, -, h, -⟩
  · exact h
  · rw [he] at h; cases h

/-- C68: at most one request is made, to the link's own address, and none unless the value is a Link (by its namespace) of a
package with an address.  Lists, in particular, are returned as they are. -/
theorem expand_requests (w : Web J) (v : Val) : (w.expand v).2 = [] ∨ ((w.expand v).2 = [hrefOf v] ∧
    w.nsOf v = some w.linkNs ∧ (w.clsPackaged = true ∨ w.packaged v = true) ∧ AS.truthy (hrefOf v) = true) := by
  have key : (w.expand v).2 = (w.get v).2 := by
    unfold Web.expand
    cases (w.get v).1 <;> rfl
  rw [key]
  unfold Web.get
  by_cases ha : w.asks v = true
  · rw [if_pos ha]
    unfold Web.asks at ha
    simp only [Bool.and_eq_true, Bool.or_eq_true, beq_iff_eq] at ha
    right
    refine ⟨?_, ha.1.1.2, ha.1.2, ha.2⟩
    cases w.fetch (hrefOf v) <;> rfl
  · rw [if_neg ha]; exact Or.inl rfl

/-- C68: anything without the Link namespace is returned as it is, without a request. -/
theorem expand_other (w : Web J) (v : Val) (h : w.nsOf v ≠ some w.linkNs) : w.expand v = (v, []) := by
  have ha : w.asks v = false := by unfold Web.asks; simp [h]
  simp [Web.expand, Web.get, ha]

/-- A web with one page. -/
def onePage : Web Nat :=
  { linkNs := "ns#Link", clsPackaged := true, clsEngine := none
    nsOf := fun v => match v with | .obj c _ => some ("ns#" ++ c) | _ => none
    packaged := fun v => match v with | .obj _ _ => true | _ => false
    engineOf := fun _ => some fun n => if n = 7 then .ok (.obj "Note" []) else .error .valueError
    fetch := fun v => match v with | .str s => if s = "http://a" then .ok 7 else if s = "http://b" then .ok 8 else .error .ioError | _ => .error .ioError }

example : onePage.expand (.obj "Link" [("href", .str "http://a")]) = (.obj "Note" [], [.str "http://a"]) := by rfl
example : onePage.expand (.obj "Link" [("href", .str "http://b")]) = (.obj "Link" [("href", .str "http://b")], [.str "http://b"]) := by rfl
example : onePage.expand (.obj "Link" [("href", .str "http://c")]) = (.obj "Link" [("href", .str "http://c")], [.str "http://c"]) := by rfl
example : onePage.expand (.list [.obj "Link" [("href", .str "http://a")]]) = (.list [.obj "Link" [("href", .str "http://a")]], []) := by rfl

end Verif.Props
