import Verif.Props.DurableMap
import Verif.Props.JsonText
import Verif.Props.RoundTrip4

/-!
# Objects kept in a database as their JSON text (C153)

An object of the ActivityStreams package cannot be stored in a database itself (C127), its text can.  This puts C93, C140 and C88 together.
-/
namespace Verif.Props.Archive
open Verif Verif.Storage Verif.Spec Verif.Db Verif.Jsonld Verif.Jsonld.Text Verif.AS Verif.Props.JsonText

/-! ### Specification -/

/-- Texts that are not empty: what a database of texts holds. -/
abbrev Kept := { s : String // s ≠ "" }

/-- The truth value of a text in Python. -/
instance : Truthy Kept := ⟨fun s => s.1 != ""⟩

/-- The event is no call that changes the object stored under this id. -/
def Untouched {V : Type} (id : String) : Event V → Prop
  | .call (.create i _) _ => i ≠ id
  | .call (.update i _) _ => i ≠ id
  | .call (.delete i) _ => i ≠ id
  | _ => True

/-- Ways to save an object under an id in a session that is in state `s`: a call of update with autocommit on whose commit is accepted, or a
with block that ends without exception and whose commit is accepted, in which the object is written and not changed any more. -/
inductive Saves {V : Type} (s : Store V) (id : String) (v : V) : List (Event V) → Prop
  | call : s.auto = true → Saves s id v [.call (.update id v) true]
  | block (before after : List (DbOp V × Bool)) (ok : Bool) : (∀ c ∈ after, Untouched id (.call c.1 c.2)) →
      Saves s id v (.enter :: before.map (fun c => .call c.1 c.2) ++ .call (.update id v) ok :: after.map (fun c => .call c.1 c.2) ++ [.exit false true])

/-! ### Proofs -/

theorem kept_truthy : AllTruthy Kept := by
  intro v
  have := v.2
  simpa [truthy, Truthy.truthy] using this

section maps
variable {V : Type}

theorem steps_append (es fs : List (Event V)) : ∀ s : Store V, s.steps (es ++ fs) = (s.steps es).steps fs := by
  induction es with
  | nil => intro s; rfl
  | cons e es ih => intro s; exact ih (s.step e)

theorem apply_untouched {id : String} {op : DbOp V} {ok : Bool} (h : Untouched id (.call op ok)) (m : Map V) : ((m.apply op).getD m) id = m id := by
  cases op with
  | create i x =>
    have h : ¬ id = i := fun e => h e.symm
    simp only [Map.apply]
    split_ifs
    · simp [Map.set, h]
    · rfl
  | update i x =>
    have h : ¬ id = i := fun e => h e.symm
    simp [Map.apply, Map.set, h]
  | delete i =>
    have h : ¬ id = i := fun e => h e.symm
    simp [Map.apply, Map.remove, h]
  | strict v =>
    simp only [Map.apply]
    split_ifs <;> rfl

/-- What no event changes stays, in the session and on the disk. -/
theorem step_untouched {id : String} {v : Option V} {e : Event V} (h : Untouched id e) {s : Store V} (h1 : s.mem id = v) (h2 : s.disk id = v) :
    (s.step e).mem id = v ∧ (s.step e).disk id = v := by
  cases e with
  | call op ok =>
    show (s.call op ok).mem id = v ∧ (s.call op ok).disk id = v
    have a1 := apply_untouched h s.mem
    have a2 := apply_untouched h s.disk
    unfold Store.call
    split_ifs
    · exact ⟨h2, h2⟩
    · exact ⟨a2.trans h2, a2.trans h2⟩
    · exact ⟨h2, h2⟩
    · exact ⟨h1, h2⟩
    · exact ⟨a1.trans h1, h2⟩
  | setAutocommit value => exact ⟨h1, h2⟩
  | enter => exact ⟨h2, h2⟩
  | exit raised ok =>
    cases raised with
    | true => exact ⟨h2, h2⟩
    | false =>
      show (s.commit ok).mem id = v ∧ (s.commit ok).disk id = v
      unfold Store.commit
      split_ifs
      · exact ⟨h1, h2⟩
      · exact ⟨h1, h1⟩
      · exact ⟨h2, h2⟩
  | commit ok =>
    show (s.commit ok).mem id = v ∧ (s.commit ok).disk id = v
    unfold Store.commit
    split_ifs
    · exact ⟨h1, h2⟩
    · exact ⟨h1, h1⟩
    · exact ⟨h2, h2⟩
  | abort => exact ⟨h2, h2⟩
  | crash a => exact ⟨h2, h2⟩

theorem steps_untouched {id : String} {v : Option V} (es : List (Event V)) : ∀ {s : Store V}, (∀ e ∈ es, Untouched id e) → s.mem id = v →
    s.disk id = v → (s.steps es).mem id = v ∧ (s.steps es).disk id = v := by
  induction es with
  | nil => intro s _ h1 h2; exact ⟨h1, h2⟩
  | cons e es ih =>
    intro s h h1 h2
    obtain ⟨a, b⟩ := step_untouched (h e (by simp)) h1 h2
    exact ih (fun e' he' => h e' (by simp [he'])) a b

/-- Calls in a block only change what the session sees. -/
theorem block_calls (cs : List (DbOp V × Bool)) : ∀ {s : Store V}, s.auto = false → s.broken = false →
    (s.steps (cs.map fun c => .call c.1 c.2)).auto = false ∧ (s.steps (cs.map fun c => .call c.1 c.2)).broken = false ∧
    ∀ id, (∀ c ∈ cs, Untouched id (.call c.1 c.2)) → (s.steps (cs.map fun c => .call c.1 c.2)).mem id = s.mem id := by
  induction cs with
  | nil => intro s h1 h2; exact ⟨h1, h2, fun _ _ => rfl⟩
  | cons c cs ih =>
    intro s h1 h2
    have hs : s.step (.call c.1 c.2) = { s with mem := (s.mem.apply c.1).getD s.mem } := by
      show s.call c.1 c.2 = _
      unfold Store.call
      rw [h1, h2]; simp
    have h := ih (s := s.step (.call c.1 c.2)) (by rw [hs]; exact h1) (by rw [hs]; exact h2)
    refine ⟨h.1, h.2.1, fun id hid => ?_⟩
    refine (h.2.2 id fun c' hc' => hid c' (by simp [hc'])).trans ?_
    rw [hs]
    exact apply_untouched (hid c (by simp)) s.mem

/-- After saving, the session and the disk hold the object. -/
theorem saves_stored {s : Store V} {id : String} {v : V} {es : List (Event V)} (h : Saves s id v es) :
    (s.steps es).mem id = some v ∧ (s.steps es).disk id = some v := by
  cases h with
  | call ha =>
    show (s.call (.update id v) true).mem id = _ ∧ (s.call (.update id v) true).disk id = _
    unfold Store.call
    rw [ha]
    simp [isWrite, Map.apply, Map.set]
  | block before after ok hu =>
    rw [List.cons_append, List.cons_append, List.append_assoc, List.cons_append]
    show ((s.step .enter).steps _).mem id = _ ∧ _
    rw [steps_append]
    obtain ⟨b1, b2, -⟩ := block_calls before (s := s.step .enter) rfl rfl
    generalize hs1 : (s.step .enter).steps (before.map fun c => Event.call c.1 c.2) = s1 at b1 b2 ⊢
    have he : (s.step .enter).steps (before.map (fun c => Event.call c.1 c.2) ++
        .call (.update id v) ok :: (after.map (fun c => Event.call c.1 c.2) ++ [.exit false true])) =
        s1.steps (.call (.update id v) ok :: (after.map (fun c => Event.call c.1 c.2) ++ [.exit false true])) := by rw [steps_append, hs1]
    show _ ∧ ((s.step .enter).steps _).disk id = _
    rw [he]
    have hs : s1.step (.call (.update id v) ok) = { s1 with mem := s1.mem.set id v } := by
      show s1.call (.update id v) ok = _
      unfold Store.call
      rw [b1, b2]; simp [Map.apply]
    show ((s1.step (.call (.update id v) ok)).steps _).mem id = _ ∧ ((s1.step (.call (.update id v) ok)).steps _).disk id = _
    rw [hs, steps_append]
    obtain ⟨c1, c2, c3⟩ := block_calls after (s := { s1 with mem := s1.mem.set id v }) b1 b2
    have c3 := c3 id hu
    generalize (Store.steps { s1 with mem := s1.mem.set id v } (after.map fun c => Event.call c.1 c.2)) = s2 at c1 c2 c3 ⊢
    have hm : s2.mem id = some v := by rw [c3]; simp [Map.set]
    show (s2.commit true).mem id = _ ∧ (s2.commit true).disk id = _
    unfold Store.commit
    rw [c2]
    simp [hm]

end maps

/-- The text of an object is not empty. -/
theorem text_nonempty {J : Type} {w : World J} {o : Layout} {c : String} {s : Slots} {text : String} (h : outputText w o c s = .ok text) : text ≠ "" := by
  unfold outputText at h
  cases hf : jsonFields w c s (propNames c) with
  | error e => rw [hf] at h; cases h
  | ok fs =>
    rw [hf] at h
    have h := Except.ok.inj h
    rw [← h]
    intro e
    have := congrArg String.toList e
    unfold jsonText dumps at this
    rw [String.toList_ofList] at this
    generalize toTreeFields (data _ fs) = kvs at this
    cases kvs with
    | nil => rw [write] at this; simp at this
    | cons kv kvs => rw [write] at this; simp at this

/-- **C153.** In every database of texts, after every history: a text saved under an id by an autocommitted update or in a block is what read
gives for this id after every further history that does not change this id — with calls on other ids, blocks, aborts, refused commits and
crashes — and also if the process dies then and the database is opened again. -/
theorem saved_text_stays (d : Disk Kept) (capacity : Nat) (hcap : 1 ≤ capacity) (create strict a : Bool) (es saving later : List (Event Kept))
    (id : String) (text : Kept) (h1 : ∀ e ∈ es, Lenient e) (h2 : ∀ e ∈ saving, Lenient e) (h3 : ∀ e ∈ later, Lenient e)
    (hs : Saves (Store.steps ⟨Map.empty, Map.empty, true, false⟩ es) id text saving) (hu : ∀ e ∈ later, Untouched id e) :
    ∃ conn, (newDb d capacity create strict).1.result = .ok () ∧
      connect ((newDb d capacity create strict).1.final (newDb d capacity create strict).2) a = .ok conn ∧
      (conn.steps (es ++ saving ++ later)).read id = .ok (some text) ∧
      ∀ b, ((conn.steps (es ++ saving ++ later)).step (.crash b)).read id = .ok (some text) := by
  obtain ⟨conn, k1, k2, k3⟩ := database_is_store kept_truthy d capacity hcap create strict a (es ++ saving ++ later) (by
    intro e he
    simp only [List.mem_append] at he
    rcases he with (he | he) | he
    · exact h1 e he
    · exact h2 e he
    · exact h3 e he)
  have hst := saves_stored hs
  have := steps_untouched later hu hst.1 hst.2
  rw [← steps_append, ← steps_append, ← List.append_assoc] at this
  exact ⟨conn, k1, k2, by rw [k3.read, this.1], fun b => by rw [k3.reopened, this.2]⟩

/-- **C153.** An object of the ActivityStreams package whose values come back (C88) and whose text is saved in a database is, after every further
history with crashes that does not change this id, given back by `from_json(db.read(id))`: an equal object, whatever the layout of the text. -/
theorem object_kept_as_text {J : Type} (value : String → Bool × String) (repr : Nat → String) (hrepr : ∀ i, (repr i).toList.head? = some '<') :
    ∃ p e, createPackage = .ok p ∧ createEngine repr = .ok e ∧ ∀ (w : World J) (expand : Tree → Outcome Expansion) (ctx : Tree),
      Plain ctx.toVal → ctx.truthy = true → Recognises expand ctx → ∀ c s, ComesBack w ctx none (objVal c s) →
      (∀ fs, jsonFields w c s (propNames c) = .ok fs → ∀ f ∈ fs, Writable (PyFloat value) f.2) → ∀ o : Layout,
      ∃ text : Kept, outputText w o c s = .ok text.1 ∧
        ∀ (d : Disk Kept) (capacity : Nat), 1 ≤ capacity → ∀ (create strict a : Bool) (es saving later : List (Event Kept)) (id : String),
        (∀ e ∈ es ++ saving ++ later, Lenient e) → Saves (Store.steps ⟨Map.empty, Map.empty, true, false⟩ es) id text saving →
        (∀ e ∈ later, Untouched id e) →
        ∃ conn t, connect ((newDb d capacity create strict).1.final (newDb d capacity create strict).2) a = .ok conn ∧
          (conn.steps (es ++ saving ++ later)).read id = .ok (some t) ∧
          fromText (asEngine w expand (registryOf p e)) value t.1 = .ok (objVal c s) := by
  obtain ⟨p, e, hp, he, h⟩ := text_round_trip_partial (J := J) value repr hrepr
  refine ⟨p, e, hp, he, fun w expand ctx h1 h2 h3 c s hc hw o => ?_⟩
  obtain ⟨text, ht, hback⟩ := h w expand ctx h1 h2 h3 c s hc hw o
  refine ⟨⟨text, text_nonempty ht⟩, ht, ?_⟩
  intro d capacity hcap create strict a es saving later id hl hs hu
  obtain ⟨conn, -, k2, k3, -⟩ := saved_text_stays d capacity hcap create strict a es saving later id ⟨text, text_nonempty ht⟩
    (fun e he => hl e (by simp [he])) (fun e he => hl e (by simp [he])) (fun e he => hl e (by simp [he])) hs hu
  exact ⟨conn, _, k2, k3, hback⟩

/-! ### Non-vacuity -/

/-- Two ways to save, after a history, and events that leave the id alone, crashes among them. -/
example (x y : Kept) : Saves (Store.steps ⟨Map.empty, Map.empty, true, false⟩ [.call (.create "a" y) true, .crash true]) "a" x [.call (.update "a" x) true] ∧
    Saves (Store.steps ⟨Map.empty, Map.empty, true, false⟩ [.setAutocommit (some false), .call (.create "a" y) true]) "a" x
      [.enter, .call (.update "a" y) false, .call (.delete "b") true, .call (.update "a" x) true, .call (.update "b" y) true, .exit false true] ∧
    ∀ e ∈ [Event.crash true, .enter, .call (.delete "b") true, .exit true true, .call (.update "b" x) false, .abort, .crash false], Untouched "a" e := by
  refine ⟨.call rfl, .block [(.update "a" y, false), (.delete "b", true)] [(.update "b" y, true)] true ?_, ?_⟩
  · intro c hc
    rw [List.mem_singleton] at hc
    subst hc
    show "b" ≠ "a"
    decide
  · intro e he
    simp only [List.mem_cons, List.not_mem_nil, or_false] at he
    have hne : "b" ≠ "a" := by decide
    rcases he with rfl | rfl | rfl | rfl | rfl | rfl | rfl
    exacts [True.intro, True.intro, hne, True.intro, hne, True.intro, True.intro]

/-- The Note of C88's example, saved in a block, comes back after crashes from the database opened again. -/
example (o : Layout) (d : Disk Kept) : ∃ p e s, ∃ text : Kept, createPackage = .ok p ∧ createEngine (fun _ => "<property object at 0x7f>") = .ok e ∧
    construct backWorld true "Note" (loadArgs "Note" asCtx outerNote) = .ok s ∧ outputText backWorld o "Note" s = .ok text.1 ∧
    ∃ conn t, connect ((newDb d 10 false false).1.final (newDb d 10 false false).2) true = .ok conn ∧
      (conn.steps ([.call (.create "n" text) true] ++ [.enter, .call (.update "n" text) true, .exit false true] ++
        [.call (.delete "m") true, .crash true, .crash false])).read "n" = .ok (some t) ∧
      fromText (asEngine backWorld typeExpand (registryOf p e)) asWritten t.1 = .ok (objectOf "Note" outerNote) := by
  obtain ⟨p, e, hp, he, h⟩ := object_kept_as_text (J := Nat) asWritten (fun _ => "<property object at 0x7f>")
    (fun _ => by show "<property object at 0x7f>".toList.head? = _; decide +kernel)
  obtain ⟨s, hs, ho⟩ := construct_back backWorld (c := "Note") (by decide +kernel) (by decide) asCtx outerNote outerNote rfl (by rfl)
    (fun q hq => by have : lostOf "Note" = [] := by decide
                    rw [this] at hq; cases hq)
    (fun q hq h => absurd h (no_numbers q hq)) outer_stores
  obtain ⟨text, ht, hk⟩ := h backWorld typeExpand asCtx (.str _) (by decide +kernel) (typeExpand_recognises _) "Note" s (by rw [ho]; exact outer_back)
    (fun fs hf f hfm => by
      have hx := ex_writable
      unfold exWritable at hx
      rw [hs] at hx
      simp only [hf] at hx
      exact fields_writable _ fs hx f hfm) o
  obtain ⟨conn, t, k1, k2, k3⟩ := hk d 10 (by decide) false false true [.call (.create "n" text) true]
    [.enter, .call (.update "n" text) true, .exit false true] [.call (.delete "m") true, .crash true, .crash false] "n"
    (fun e he => by
      simp only [List.mem_append, List.mem_cons, List.not_mem_nil, or_false] at he
      rcases he with (rfl | rfl | rfl | rfl) | rfl | rfl | rfl <;> trivial)
    (.block [] [] true (fun c hc => by cases hc))
    (fun e he => by
      simp only [List.mem_cons, List.not_mem_nil, or_false] at he
      have hne : "m" ≠ "n" := by decide
      rcases he with rfl | rfl | rfl
      exacts [hne, True.intro, True.intro])
  exact ⟨p, e, s, text, hp, he, hs, ht, conn, t, k1, k2, k3.trans (congrArg Except.ok ho)⟩

end Verif.Props.Archive
