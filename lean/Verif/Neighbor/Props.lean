import Verif.Neighbor.Model
/-!
# The dictionaries of neighbours: theorems (C87)
-/
namespace Osp.Neighbor
open Osp.Cuds

/-! ### Specification -/

/-- Specification: the triples the caller has in front of them: what the object has after the session was asked to bring it up to date. -/
def St.seen (sess : Bool) (st : St) : Graph :=
  if sess = true then match st.pending with | none => st.g | some f => f st.g else st.g

/-- Specification: `x` is a neighbour of `me` by `r`. -/
def Linked (g : Graph) (me : Uid) (r : Rel) (x : Uid) : Prop := ⟨me, .rel r, .cuds x⟩ ∈ g

/-- Specification: `x` has class `c`. -/
def Typed (g : Graph) (x : Uid) (c : Cls) : Prop := ⟨x, .type, .cls c⟩ ∈ g

/-- Specification: the entries of an assigned dict that are accepted. -/
def Valid : TKey × TVal → Prop
  | (.uid _, .classes _) => True
  | _ => False

/-- Specification: the triples that the entry `x : cs` says. -/
def Says (me : Uid) (r : Rel) (E : List (TKey × TVal)) (t : Triple) : Prop :=
  ∃ x cs, (TKey.uid x, TVal.classes cs) ∈ E ∧ (t = ⟨me, .rel r, .cuds x⟩ ∨ ∃ c ∈ cs, t = ⟨x, .type, .cls c⟩)

/-- Specification: what is notified to the session, if there is one. -/
def heard (sess : Bool) (l : List Ev) : List Ev := if sess = true then l else []

/-! ### Lemmas -/

theorem read_g (sess : Bool) (me : Uid) (st : St) : (notifyRead sess me st).g = st.seen sess := by
  unfold notifyRead St.seen; cases sess with
  | false => rfl
  | true => rfl
theorem read_log (sess : Bool) (me : Uid) (st : St) : (notifyRead sess me st).log = st.log ++ heard sess [.read me] := by
  unfold notifyRead heard; cases sess <;> simp
theorem update_g (sess : Bool) (me : Uid) (st : St) : (notifyUpdate sess me st).g = st.g := by
  unfold notifyUpdate; cases sess <;> simp
theorem update_log (sess : Bool) (me : Uid) (st : St) : (notifyUpdate sess me st).log = st.log ++ heard sess [.update me] := by
  unfold notifyUpdate heard; cases sess <;> simp

/-- Nothing is left to refresh (or nobody asks for it). -/
def Fresh (sess : Bool) (st : St) : Prop := sess = true → st.pending = none

theorem fresh_read (sess : Bool) (me : Uid) (st : St) : Fresh sess (notifyRead sess me st) := by
  intro h; subst h; rfl
theorem fresh_seen {sess : Bool} {st : St} (h : Fresh sess st) : st.seen sess = st.g := by
  unfold St.seen; cases sess with
  | false => rfl
  | true => rw [h rfl]; rfl
theorem fresh_update {sess : Bool} {me : Uid} {st : St} (h : Fresh sess st) : Fresh sess (notifyUpdate sess me st) := by
  intro e; subst e; exact h rfl
theorem fresh_with {sess : Bool} {st : St} (h : Fresh sess st) (g : Graph) : Fresh sess { st with g := g } := h

theorem heard_append (sess : Bool) (a b : List Ev) : heard sess a ++ heard sess b = heard sess (a ++ b) := by
  unfold heard; cases sess <;> simp


/-! ### One relationship -/

/-- **C87, reading an entry.** `d[x]` is the list of the classes of `x` if `x` is a neighbour, else a KeyError; the session is told about the reading
first and the answer is what the session then has; a key that is no uid is a ValueError, and nobody is told. Nothing is changed. -/
theorem target_get_exact (sess : Bool) (me : Uid) (r : Rel) (x : Uid) (st : St) :
    (targetGet sess me r (.uid x) st).st = notifyRead sess me st ∧
    (¬ Linked (st.seen sess) me r x → (targetGet sess me r (.uid x) st).res = .error .keyError) ∧
    (Linked (st.seen sess) me r x → ∃ cs, (targetGet sess me r (.uid x) st).res = .ok cs ∧ ∀ c, c ∈ cs ↔ Typed (st.seen sess) x c) ∧
    targetGet sess me r .other st = ⟨.error .valueError, st⟩ := by
  unfold Linked Typed
  simp only [targetGet, read_g]
  refine ⟨?_, ?_, ?_, trivial⟩
  · split <;> rfl
  · intro h; rw [if_neg h]
  · intro h; rw [if_pos h]; exact ⟨_, rfl, fun c => mem_oclasses⟩

/-- What setting an accepted entry does. -/
theorem targetSet_valid (sess : Bool) (me : Uid) (r : Rel) (x : Uid) (cs : List Cls) (st : St) :
    (targetSet sess me r (.uid x) (.classes cs) st).res = .ok () ∧
    (targetSet sess me r (.uid x) (.classes cs) st).st.log = st.log ++ heard sess [.read me, .update me] ∧
    Fresh sess (targetSet sess me r (.uid x) (.classes cs) st).st ∧
    (targetSet sess me r (.uid x) (.classes cs) st).st.g = setTarget (st.seen sess) me r x cs := by
  simp only [targetSet, update_g, update_log, read_g, read_log]
  refine ⟨trivial, ?_, ?_, trivial⟩
  · rw [List.append_assoc, heard_append]; rfl
  · exact fresh_update (fun h => fresh_read sess me st h)

/-- **C87, setting an entry.** `d[x] = cs` adds the neighbour and the classes to what the session has, and nothing else: other neighbours, other
relationships, the classes `x` had before stay. A key that is no uid, or a value that is no list of classes, is a ValueError without any effect. -/
theorem target_set_exact (sess : Bool) (me : Uid) (r : Rel) (st : St) :
    (∀ x cs t, t ∈ (targetSet sess me r (.uid x) (.classes cs) st).st.g ↔
      t ∈ st.seen sess ∨ t = ⟨me, .rel r, .cuds x⟩ ∨ ∃ c ∈ cs, t = ⟨x, .type, .cls c⟩) ∧
    (∀ x cs, (targetSet sess me r (.uid x) (.classes cs) st).res = .ok () ∧
      (targetSet sess me r (.uid x) (.classes cs) st).st.log = st.log ++ heard sess [.read me, .update me]) ∧
    (∀ k v, ¬ Valid (k, v) → targetSet sess me r k v st = ⟨.error .valueError, st⟩) := by
  refine ⟨?_, ?_, ?_⟩
  · intro x cs t
    rw [(targetSet_valid sess me r x cs st).2.2.2, mem_setTarget]
    constructor
    · rintro (h | h | h)
      · exact .inr (.inl h)
      · exact .inl h
      · exact .inr (.inr h)
    · rintro (h | h | h)
      · exact .inr (.inl h)
      · exact .inl h
      · exact .inr (.inr h)
  · intro x cs
    exact ⟨(targetSet_valid sess me r x cs st).1, (targetSet_valid sess me r x cs st).2.1⟩
  · intro k v h
    cases k with
    | other => rfl
    | uid x => cases v with
      | other => rfl
      | classes cs => exact absurd trivial h

/-- **C87, a set entry can be read.** After `d[x] = cs`, `d[x]` has exactly the classes of `cs` and those `x` had before, whatever the session had to
refresh. -/
theorem target_set_get (sess : Bool) (me : Uid) (r : Rel) (x : Uid) (cs : List Cls) (st : St) :
    ∃ l, (targetGet sess me r (.uid x) (targetSet sess me r (.uid x) (.classes cs) st).st).res = .ok l ∧
      ∀ c, c ∈ l ↔ c ∈ cs ∨ Typed (st.seen sess) x c := by
  obtain ⟨_, _, hf, hg⟩ := targetSet_valid sess me r x cs st
  have hs := fresh_seen hf
  obtain ⟨l, hl, hm⟩ := (target_get_exact sess me r x (targetSet sess me r (.uid x) (.classes cs) st).st).2.2.1
    (by rw [hs]; unfold Linked; exact ((target_set_exact sess me r st).1 x cs _).2 (.inr (.inl rfl)))
  refine ⟨l, hl, fun c => ?_⟩
  rw [hm, hs]
  unfold Typed
  rw [(target_set_exact sess me r st).1 x cs]
  constructor
  · rintro (h | h | ⟨c', h, e⟩)
    · exact .inr h
    · cases h
    · cases e; exact .inl h
  · rintro (h | h)
    · exact .inr (.inr ⟨c, h, rfl⟩)
    · exact .inl h

/-- **C87, deleting an entry.** `del d[x]` removes the neighbour and nothing else (the classes of `x` stay); it is no error if `x` is no neighbour; the
session is told. -/
theorem target_del_exact (sess : Bool) (me : Uid) (r : Rel) (x : Uid) (st : St) :
    (targetDel sess me r (.uid x) st).res = .ok () ∧
    (targetDel sess me r (.uid x) st).st.log = st.log ++ heard sess [.read me, .update me] ∧
    (∀ t, t ∈ (targetDel sess me r (.uid x) st).st.g ↔ t ∈ st.seen sess ∧ t ≠ ⟨me, .rel r, .cuds x⟩) ∧
    targetDel sess me r .other st = ⟨.error .valueError, st⟩ := by
  simp only [targetDel, update_g, update_log, read_g, read_log]
  refine ⟨trivial, ?_, ?_, trivial⟩
  · rw [List.append_assoc, heard_append]; rfl
  · intro t
    unfold delTarget
    rw [mem_gremove]
    refine and_congr Iff.rfl ?_
    rw [← Bool.not_eq_true, matchesPat_iff]
    simp only [Option.some.injEq, forall_eq']
    constructor
    · intro h e; exact h (by rw [e]; exact ⟨rfl, rfl, rfl⟩)
    · intro h ⟨h1, h2, h3⟩; exact h (by cases t; simp only at h1 h2 h3; subst h1 h2 h3; rfl)

/-- Specification: what the session hears when `n` entries are set one after the other. -/
def turns (me : Uid) : Nat → List Ev
  | 0 => []
  | n + 1 => .read me :: .update me :: turns me n

theorem turns_succ (me : Uid) (n : Nat) : turns me (n + 1) = [.read me, .update me] ++ turns me n := rfl

/-- Setting entries one after the other in a session that is up to date. -/
theorem update_ok (sess : Bool) (me : Uid) (r : Rel) : ∀ (E : List (TKey × TVal)) (st : St), Fresh sess st → (∀ e ∈ E, Valid e) →
    (targetUpdate sess me r E st).res = .ok () ∧ Fresh sess (targetUpdate sess me r E st).st ∧
    (targetUpdate sess me r E st).st.log = st.log ++ heard sess (turns me E.length) ∧
    ∀ t, t ∈ (targetUpdate sess me r E st).st.g ↔ t ∈ st.g ∨ Says me r E t
  | [], st, hf, _ => by
    refine ⟨rfl, hf, ?_, fun t => ?_⟩
    · simp only [targetUpdate, List.length_nil, turns, heard]; cases sess <;> simp
    · simp only [targetUpdate, Says, List.not_mem_nil, false_and, exists_false, or_false]
  | (k, v) :: E, st, hf, hv => by
    have h0 := hv (k, v) (List.mem_cons_self ..)
    cases k with
    | other => exact absurd h0 (by simp [Valid])
    | uid x => cases v with
      | other => exact absurd h0 (by simp [Valid])
      | classes cs =>
        obtain ⟨h1, h2, h3, h4⟩ := targetSet_valid sess me r x cs st
        have hm := (target_set_exact sess me r st).1 x cs
        have hE := update_ok sess me r E (targetSet sess me r (.uid x) (.classes cs) st).st h3 (fun e he => hv e (List.mem_cons_of_mem _ he))
        have e : targetUpdate sess me r ((.uid x, .classes cs) :: E) st = targetUpdate sess me r E (targetSet sess me r (.uid x) (.classes cs) st).st := by
          simp only [targetUpdate]
          cases h : targetSet sess me r (.uid x) (.classes cs) st with
          | mk re s' => rw [h] at h1; simp only at h1; subst h1; rfl
        rw [e]
        refine ⟨hE.1, hE.2.1, ?_, fun t => ?_⟩
        · rw [hE.2.2.1, h2, List.append_assoc, heard_append]; rfl
        · rw [hE.2.2.2, hm, fresh_seen hf]
          unfold Says
          constructor
          · rintro ((h | h) | ⟨y, ds, hy, h⟩)
            · exact .inl h
            · exact .inr ⟨x, cs, List.mem_cons_self .., h⟩
            · exact .inr ⟨y, ds, List.mem_cons_of_mem _ hy, h⟩
          · rintro (h | ⟨y, ds, hy, h⟩)
            · exact .inl (.inl h)
            · rcases List.mem_cons.1 hy with hy | hy
              · cases hy; exact .inl (.inr h)
              · exact .inr ⟨y, ds, hy, h⟩

theorem update_append (sess : Bool) (me : Uid) (r : Rel) : ∀ (E F : List (TKey × TVal)) (st : St),
    (targetUpdate sess me r E st).res = .ok () →
    targetUpdate sess me r (E ++ F) st = targetUpdate sess me r F (targetUpdate sess me r E st).st
  | [], _, _, _ => rfl
  | (k, v) :: E, F, st, h => by
    simp only [targetUpdate, List.cons_append] at h ⊢
    cases e : targetSet sess me r k v st with
    | mk re s' => cases re with
      | error x => rw [e] at h; cases h
      | ok u => rw [e] at h; exact update_append sess me r E F s' h

/-- An entry that is refused ends the update: what came before it has been set. -/
theorem update_bad (sess : Bool) (me : Uid) (r : Rel) (E F : List (TKey × TVal)) (b : TKey × TVal) (st : St)
    (hE : (targetUpdate sess me r E st).res = .ok ()) (hb : ¬ Valid b) :
    targetUpdate sess me r (E ++ b :: F) st = ⟨.error .valueError, (targetUpdate sess me r E st).st⟩ := by
  rw [update_append sess me r E (b :: F) st hE]
  obtain ⟨k, v⟩ := b
  simp only [targetUpdate, (target_set_exact sess me r _).2.2 k v hb]

/-- **C87, updating.** `d.update(E)` with accepted entries adds exactly the neighbours and classes of `E` (the session had told everything
before); a refused entry is a ValueError, and the entries before it have been set. -/
theorem update_exact (sess : Bool) (me : Uid) (r : Rel) (E : List (TKey × TVal)) (st : St) (hf : Fresh sess st) (hv : ∀ e ∈ E, Valid e) :
    ((targetUpdate sess me r E st).res = .ok () ∧
      (targetUpdate sess me r E st).st.log = st.log ++ heard sess (turns me E.length) ∧
      ∀ t, t ∈ (targetUpdate sess me r E st).st.g ↔ t ∈ st.g ∨ Says me r E t) ∧
    ∀ b F, ¬ Valid b → (targetUpdate sess me r (E ++ b :: F) st).res = .error .valueError ∧
      ∀ t, t ∈ (targetUpdate sess me r (E ++ b :: F) st).st.g ↔ t ∈ st.g ∨ Says me r E t := by
  obtain ⟨h1, _, h3, h4⟩ := update_ok sess me r E st hf hv
  refine ⟨⟨h1, h3, h4⟩, fun b F hb => ?_⟩
  rw [update_bad sess me r E F b st h1 hb]
  exact ⟨rfl, h4⟩

/-- **C87, iterating.** The iteration yields exactly the neighbours, each once. -/
theorem target_iter_exact (sess : Bool) (me : Uid) (r : Rel) (st : St) :
    ∃ xs, targetIter sess me r st = ⟨.ok xs, notifyRead sess me st⟩ ∧ (∀ x, x ∈ xs ↔ Linked (st.seen sess) me r x) ∧
      ((st.seen sess).Nodup → xs.Nodup) := by
  refine ⟨_, rfl, fun x => ?_, fun h => ?_⟩
  · simp only [read_g]; exact mem_targets
  · simp only [read_g]; exact nodup_targets h me r

/-! ### The relationships -/

theorem mem_gremove_rel {g : Graph} {me : Uid} {r : Rel} {t : Triple} :
    t ∈ g.remove (some me) (some (.rel r)) none ↔ t ∈ g ∧ ¬ (t.s = me ∧ t.p = .rel r) := by
  rw [mem_gremove]
  refine and_congr Iff.rfl ?_
  rw [← Bool.not_eq_true, matchesPat_iff]
  simp [eq_comm]

/-- **C87, assigning the neighbours of a relationship.** `neighbors[r] = E` makes the entries of `E` the neighbours by `r`, all of them and no others;
nothing else changes except that the classes in `E` are added. The session is told about the reading, each entry, and the update. -/
theorem rel_set_exact (sess : Bool) (me : Uid) (r : Rel) (E : List (TKey × TVal)) (st : St) (hv : ∀ e ∈ E, Valid e) :
    (relSet sess me (.rel r) (.dict E) st).res = .ok () ∧
    (relSet sess me (.rel r) (.dict E) st).st.log = st.log ++ heard sess (.read me :: turns me E.length ++ [.update me]) ∧
    ∀ t, t ∈ (relSet sess me (.rel r) (.dict E) st).st.g ↔ (t ∈ st.seen sess ∧ ¬ (t.s = me ∧ t.p = .rel r)) ∨ Says me r E t := by
  have hf : Fresh sess { notifyRead sess me st with g := (notifyRead sess me st).g.remove (some me) (some (.rel r)) none } :=
    fresh_with (fresh_read sess me st) _
  obtain ⟨h1, _, h3, h4⟩ := update_ok sess me r E _ hf hv
  have e : relSet sess me (.rel r) (.dict E) st = ⟨.ok (), notifyUpdate sess me (targetInit sess me r E (notifyRead sess me st)).st⟩ := by
    simp only [relSet, targetInit]
    cases h : targetUpdate sess me r E { notifyRead sess me st with g := (notifyRead sess me st).g.remove (some me) (some (.rel r)) none } with
    | mk re s' => rw [h] at h1; simp only at h1; subst h1; rfl
  rw [e]
  refine ⟨rfl, ?_, fun t => ?_⟩
  · simp only [update_log, targetInit]
    rw [h3]
    simp only [read_log]
    rw [List.append_assoc, List.append_assoc, heard_append, heard_append]; rfl
  · simp only [update_g, targetInit]
    rw [h4]
    simp only [read_g]
    rw [mem_gremove_rel]

/-- Reading back: the neighbours by `r` are exactly the keys of the assigned dict. -/
theorem rel_set_keys (sess : Bool) (me : Uid) (r : Rel) (E : List (TKey × TVal)) (st : St) (hv : ∀ e ∈ E, Valid e) (x : Uid) :
    Linked (relSet sess me (.rel r) (.dict E) st).st.g me r x ↔ TKey.uid x ∈ E.map (·.1) := by
  unfold Linked
  rw [(rel_set_exact sess me r E st hv).2.2]
  constructor
  · rintro (⟨_, h⟩ | ⟨y, cs, hy, h⟩)
    · exact absurd ⟨rfl, rfl⟩ h
    · rcases h with h | ⟨c, _, h⟩
      · cases h; exact List.mem_map.2 ⟨_, hy, rfl⟩
      · cases h
  · intro h
    obtain ⟨⟨k, v⟩, he, hk⟩ := List.mem_map.1 h
    simp only at hk
    subst hk
    have := hv _ he
    cases v with
    | other => exact absurd this (by simp [Valid])
    | classes cs => exact .inr ⟨x, cs, he, .inl rfl⟩

/-- **C87, a refused assignment is half done.** If an entry of the dict is refused, the assignment raises a ValueError: the old neighbours are gone, the
entries before the refused one are set, and the update of the relationship itself is never notified. A key that is no relationship, or a
value that is no dict, is a ValueError without any effect. -/
theorem rel_set_refused (sess : Bool) (me : Uid) (r : Rel) (st : St) :
    (∀ E b F, (∀ e ∈ E, Valid e) → ¬ Valid b →
      (relSet sess me (.rel r) (.dict (E ++ b :: F)) st).res = .error .valueError ∧
      (relSet sess me (.rel r) (.dict (E ++ b :: F)) st).st.log = st.log ++ heard sess (.read me :: turns me E.length) ∧
      ∀ t, t ∈ (relSet sess me (.rel r) (.dict (E ++ b :: F)) st).st.g ↔
        (t ∈ st.seen sess ∧ ¬ (t.s = me ∧ t.p = .rel r)) ∨ Says me r E t) ∧
    relSet sess me (.rel r) .other st = ⟨.error .valueError, st⟩ ∧
    ∀ v, relSet sess me .other v st = ⟨.error .valueError, st⟩ := by
  refine ⟨fun E b F hv hb => ?_, rfl, fun v => rfl⟩
  have hf : Fresh sess { notifyRead sess me st with g := (notifyRead sess me st).g.remove (some me) (some (.rel r)) none } :=
    fresh_with (fresh_read sess me st) _
  obtain ⟨h1, _, h3, h4⟩ := update_ok sess me r E _ hf hv
  have hbad := update_bad sess me r E F b _ h1 hb
  have e : relSet sess me (.rel r) (.dict (E ++ b :: F)) st = ⟨.error .valueError, (targetInit sess me r E (notifyRead sess me st)).st⟩ := by
    simp only [relSet, targetInit]
    rw [hbad]
  rw [e]
  refine ⟨rfl, ?_, fun t => ?_⟩
  · simp only [targetInit]
    rw [h3]
    simp only [read_log]
    rw [List.append_assoc, heard_append]; rfl
  · simp only [targetInit]
    rw [h4]
    simp only [read_g]
    rw [mem_gremove_rel]

/-- **C87, deleting a relationship.** `del neighbors[r]` removes all neighbours by `r` and nothing else. It is no error if there are none. -/
theorem rel_del_exact (sess : Bool) (me : Uid) (r : Rel) (st : St) :
    (relDel sess me (.rel r) st).res = .ok () ∧
    (relDel sess me (.rel r) st).st.log = st.log ++ heard sess [.read me, .update me] ∧
    (∀ t, t ∈ (relDel sess me (.rel r) st).st.g ↔ t ∈ st.seen sess ∧ ¬ (t.s = me ∧ t.p = .rel r)) ∧
    relDel sess me .other st = ⟨.error .valueError, st⟩ := by
  simp only [relDel, update_g, update_log, read_g, read_log]
  refine ⟨trivial, ?_, fun t => mem_gremove_rel, trivial⟩
  rw [List.append_assoc, heard_append]; rfl

/-- **C87, the relationships.** Iteration and `keys` yield exactly the relationships by which there is something, each once; `neighbors[r]` never
fails for a relationship, even one that is no key (the dictionary is then empty), and notifies a reading. -/
theorem rel_iter_exact (sess : Bool) (me : Uid) (st : St) :
    (∃ rs, relIter sess me st = ⟨.ok rs, notifyRead sess me st⟩ ∧ rs.Nodup ∧ ∀ r, r ∈ rs ↔ ∃ o, ⟨me, .rel r, o⟩ ∈ st.seen sess) ∧
    (∀ r, relGet sess me (.rel r) st = ⟨.ok r, notifyRead sess me st⟩) ∧ relGet sess me .other st = ⟨.error .valueError, st⟩ := by
  refine ⟨⟨_, rfl, nodup_neighborRels _ _, fun r => ?_⟩, fun r => rfl, rfl⟩
  simp only [read_g]; exact mem_neighborRels

/-- **C87, emptiness.** The truth value says whether the object is known to have neighbours; it notifies nobody and therefore ignores what the
session has still to load. -/
theorem rel_bool_exact (me : Uid) (st : St) : relBool me st = true ↔ ∃ r o, ⟨me, .rel r, o⟩ ∈ st.g := by
  unfold relBool
  rw [List.any_eq_true]
  constructor
  · rintro ⟨⟨s, p, o⟩, ht, h⟩
    rw [mem_gtriples, matchesPat_iff] at ht
    have hs := ht.2.1 me rfl
    simp only at hs; subst hs
    cases p with
    | rel r => exact ⟨r, o, ht.1⟩
    | attr a => cases h
    | type => cases h
  · rintro ⟨r, o, h⟩
    refine ⟨_, mem_gtriples.2 ⟨h, ?_⟩, rfl⟩
    rw [matchesPat_iff]; simp

/-- If nothing is left to refresh, it is true exactly if there is a key. -/
theorem rel_bool_keys (sess : Bool) (me : Uid) (st : St) (hf : Fresh sess st) :
    relBool me st = true ↔ ∃ rs s', relIter sess me st = ⟨.ok rs, s'⟩ ∧ rs ≠ [] := by
  rw [rel_bool_exact]
  obtain ⟨⟨rs, e, _, h⟩, _⟩ := rel_iter_exact sess me st
  rw [fresh_seen hf] at h
  constructor
  · rintro ⟨r, o, ho⟩
    exact ⟨rs, _, e, fun e => by subst e; exact absurd ((h r).2 ⟨o, ho⟩) (by simp)⟩
  · rintro ⟨rs', s', e', hne⟩
    rw [e] at e'; cases e'
    cases rs with
    | nil => exact absurd rfl hne
    | cons r rs => obtain ⟨o, ho⟩ := (h r).1 (List.mem_cons_self ..); exact ⟨r, o, ho⟩

end Osp.Neighbor
