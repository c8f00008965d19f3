import Verif.Sess.Model
/-!
# The wrapper checks of wrapper sessions (C15)
-/
namespace Osp.Sess

/-- The part of a session the checks look at: the root, the registered uids, and per uid what the type triples say: no class (`none`), or whether the class is a
subclass of `cuba.Wrapper`. -/
structure RSt where
  root : Option Uid
  reg : List Uid
  ty : Uid → Option Bool

def RSt.fresh : RSt := ⟨none, [], fun _ => none⟩

/-- `_store_checks`, wrapper_session.py:195-206. `is_a(cuba.Wrapper)` is false without a class. -/
def RSt.checks (s : RSt) (u : Uid) (t : Option Bool) : Option PyErr :=
  if t = some true ∧ s.root ≠ none ∧ s.root ≠ some u then some .runtimeError
  else if t ≠ some true ∧ s.root = none then some .runtimeError
  else if t = none then some .typeError
  else none

/-- `Session._store`, session.py:36-50. -/
def RSt.put (s : RSt) (u : Uid) (t : Option Bool) : RSt :=
  { reg := ins s.reg u, ty := Function.update s.ty u (t.or (s.ty u)), root := match s.root with
    | none => some u
    | some r => some r }

/-- `Cuds.__init__` followed by `WrapperSession._store`, cuds.py:40-82, wrapper_session.py:209-240: the checks are skipped without a class. -/
def RSt.new (s : RSt) (u : Uid) (t : Option Bool) : Except PyErr Unit × RSt :=
  match t with
  | none => (.ok (), s.put u none)
  | some w => match s.checks u (some w) with
    | some e => (.error e, s)
    | none => (.ok (), s.put u (some w))

/-- `create_from_triples`, wrapper_development.py:188-232: the object is stored without a class, gets its triples, and is checked afterwards. -/
def RSt.fromTriples (s : RSt) (u : Uid) (t : Option Bool) : Except PyErr Unit × RSt :=
  let s := if u ∈ s.reg then { s with ty := Function.update s.ty u none } else (s.new u none).2
  let s := { s with ty := Function.update s.ty u t }
  match s.checks u t with
  | some e => (.error e, s)
  | none => (.ok (), s)

inductive ROp where
  /-- creating an object of a class -/
  | new (u : Uid) (wrapper : Bool)
  /-- loading or receiving an object -/
  | fromTriples (u : Uid) (t : Option Bool)

def rstep (s : RSt) : ROp → Except PyErr Unit × RSt
  | .new u w => s.new u (some w)
  | .fromTriples u t => s.fromTriples u t

def rrun (s : RSt) (ops : List ROp) : RSt := ops.foldl (fun s o => (rstep s o).2) s

/-- The root is registered, is a wrapper, and is the only registered wrapper. -/
def RInv (s : RSt) : Prop :=
  (s.root = none → s.reg = []) ∧ ∀ r, s.root = some r → r ∈ s.reg ∧ s.ty r = some true ∧ ∀ v ∈ s.reg, s.ty v = some true → v = r

/-- What a loaded object must be: not a second wrapper, the wrapper stays a wrapper, and the session has a wrapper. -/
def Loads (s : RSt) : ROp → Prop
  | .new u w => u ∈ s.reg → s.ty u = some w
  | .fromTriples u t => s.root ≠ none ∧ (t = some true ↔ s.root = some u)

theorem rstep_inv {s : RSt} (h : RInv s) {o : ROp} (hl : Loads s o) :
    RInv (rstep s o).2 ∧ (∀ r, s.root = some r → (rstep s o).2.root = some r) ∧
    ((rstep s o).1 ≠ .ok () → (∃ u w, o = .new u w) → (rstep s o).2 = s) := by
  cases o with
  | new u w =>
    show RInv (s.new u (some w)).2 ∧ _
    unfold rstep RSt.new
    dsimp only
    cases hc : s.checks u (some w) with
    | some e => exact ⟨h, fun _ h => h, fun _ _ => rfl⟩
    | none =>
      dsimp only
      refine ⟨?_, ?_, fun k => absurd rfl k⟩
      · unfold RSt.checks at hc
        cases hr : s.root with
        | none =>
          have hw : w = true := by
            cases w with
            | true => rfl
            | false => simp [hr] at hc
          subst hw
          have hreg := h.1 hr
          unfold RSt.put
          rw [hr, hreg]
          refine ⟨fun k => (by cases k), ?_⟩
          intro r hrr
          injection hrr with hrr
          subst hrr
          simp [ins]
        | some r =>
          obtain ⟨h1, h2, h3⟩ := h.2 r hr
          unfold RSt.put
          rw [hr]
          refine ⟨fun k => (by cases k), ?_⟩
          intro r' hrr
          injection hrr with hrr
          subst hrr
          have hwu : w = true → u = r := by
            rintro rfl
            by_contra hne
            rw [hr] at hc
            rw [if_pos ⟨rfl, by simp, by simpa using fun k => hne k.symm⟩] at hc
            cases hc
          refine ⟨?_, ?_, ?_⟩
          · show r ∈ ins s.reg u
            unfold ins; split
            · exact h1
            · exact List.mem_append_left _ h1
          · show Function.update s.ty u ((some w).or (s.ty u)) r = some true
            by_cases hru : r = u
            · subst hru
              rw [Function.update_self]
              have := hl h1
              rw [h2] at this
              rw [← this]; rfl
            · rw [Function.update_of_ne hru]; exact h2
          · intro v hv hvt
            have hvt' : Function.update s.ty u ((some w).or (s.ty u)) v = some true := hvt
            by_cases hvu : v = u
            · subst hvu
              rw [Function.update_self] at hvt'
              exact hwu (by simpa using hvt')
            · rw [Function.update_of_ne hvu] at hvt'
              refine h3 v ?_ hvt'
              have : v ∈ ins s.reg u := hv
              unfold ins at this
              split at this
              · exact this
              · simp only [List.mem_append, List.mem_cons, List.not_mem_nil, or_false] at this
                rcases this with k | k
                · exact k
                · exact absurd k hvu
      · intro r hr
        show (match s.root with
          | none => some u
          | some r => some r) = some r
        rw [hr]
  | fromTriples u t =>
    obtain ⟨hr, ht⟩ := hl
    obtain ⟨r, hr'⟩ : ∃ r, s.root = some r := by
      cases h' : s.root with
      | none => exact absurd h' hr
      | some r => exact ⟨r, rfl⟩
    obtain ⟨h1, h2, h3⟩ := h.2 r hr'
    have key : ∃ reg', ((rstep s (.fromTriples u t)).2 = { root := some r, reg := reg', ty := Function.update s.ty u t }) ∧
        ∀ v, v ∈ reg' ↔ v ∈ s.reg ∨ v = u := by
      unfold rstep RSt.fromTriples RSt.new RSt.put
      by_cases hu : u ∈ s.reg
      · refine ⟨s.reg, ?_, fun v => ⟨Or.inl, fun k => k.elim id (fun e => e ▸ hu)⟩⟩
        simp only [hu, if_true, Function.update_idem, hr']
        split <;> rfl
      · refine ⟨ins s.reg u, ?_, ?_⟩
        · simp only [hu, if_false, Function.update_idem, hr']
          split <;> rfl
        · intro v
          unfold ins
          rw [if_neg hu]
          simp
    obtain ⟨reg', hs, hreg'⟩ := key
    rw [hs]
    refine ⟨⟨fun k => (by cases k), ?_⟩, fun q hq => by rw [hr'] at hq; exact hq, ?_⟩
    · intro q hq
      injection hq with hq
      subst hq
      refine ⟨(hreg' r).2 (Or.inl h1), ?_, ?_⟩
      · show Function.update s.ty u t r = some true
        by_cases hru : r = u
        · subst hru; rw [Function.update_self]; exact ht.2 hr'
        · rw [Function.update_of_ne hru]; exact h2
      · intro v hv hvt
        have hvt' : Function.update s.ty u t v = some true := hvt
        by_cases hvu : v = u
        · subst hvu
          rw [Function.update_self] at hvt'
          have := ht.1 hvt'
          rw [hr'] at this
          injection this with this
          exact this.symm
        · rw [Function.update_of_ne hvu] at hvt'
          refine h3 v ?_ hvt'
          rcases (hreg' v).1 hv with k | k
          · exact k
          · exact absurd k hvu
    · rintro _ ⟨_, _, k⟩; cases k

def RAlong (Q : RSt → ROp → Prop) : RSt → List ROp → Prop
  | _, [] => True
  | s, o :: os => Q s o ∧ RAlong Q (rstep s o).2 os

/-- **C15.** In every history of creating and loading objects the root is a registered wrapper, never changes once it is set, and no other wrapper is registered.
Partial: what is loaded must be consistent (no second wrapper, no loading into a session without wrapper) and objects are not created again with another type; the
findings below show that the code does not enforce this. -/
theorem one_wrapper_partial (ops : List ROp) (h : RAlong Loads RSt.fresh ops) :
    RInv (rrun RSt.fresh ops) := by
  have main : ∀ (ops : List ROp) (s : RSt), RInv s → RAlong Loads s ops → RInv (rrun s ops) := by
    intro ops
    induction ops with
    | nil => intro s h _; exact h
    | cons o os ih =>
      intro s h hal
      exact ih _ (rstep_inv h hal.1).1 hal.2
  exact main ops _ ⟨fun _ => rfl, fun r h => by cases h⟩ h

/-- **C15** for sessions in which objects are only created (with new uids): no condition on the classes is needed, and a rejected creation changes nothing. -/
theorem one_wrapper_created (ops : List ROp) (hn : RAlong (fun s o => ∃ u w, o = .new u w ∧ u ∉ s.reg) RSt.fresh ops) :
    RInv (rrun RSt.fresh ops) := by
  apply one_wrapper_partial
  have main : ∀ (ops : List ROp) (s : RSt), RAlong (fun s o => ∃ u w, o = .new u w ∧ u ∉ s.reg) s ops → RAlong Loads s ops := by
    intro ops
    induction ops with
    | nil => intro s _; trivial
    | cons o os ih =>
      rintro s ⟨⟨u, w, rfl, hu⟩, h⟩
      exact ⟨fun k => absurd k hu, ih _ h⟩
  exact main ops _ hn

/-- A rejected creation leaves the session as it was, in any state. -/
theorem rejected_creation_no_effect (s : RSt) (u : Uid) (w : Bool) (h : (rstep s (.new u w)).1 ≠ .ok ()) : (rstep s (.new u w)).2 = s := by
  unfold rstep RSt.new at *
  dsimp only at *
  cases hc : s.checks u (some w) with
  | some e => rfl
  | none => rw [hc] at h; exact absurd rfl h

/-- **C15**: the root never changes, in any history at all. -/
theorem root_never_changes (s : RSt) (r : Uid) (h : s.root = some r) (ops : List ROp) : (rrun s ops).root = some r := by
  have step1 : ∀ (s : RSt) (o : ROp), s.root = some r → (rstep s o).2.root = some r := by
    intro s o h
    cases o with
    | new u w =>
      unfold rstep RSt.new
      dsimp only
      cases s.checks u (some w) with
      | some e => exact h
      | none =>
        show (match s.root with
          | none => some u
          | some r => some r) = some r
        rw [h]
    | fromTriples u t =>
      unfold rstep RSt.fromTriples RSt.new RSt.put
      by_cases hu : u ∈ s.reg
      · simp only [hu, if_true]
        split <;> exact h
      · simp only [hu, if_false, h]
        split <;> rfl
  induction ops generalizing s with
  | nil => exact h
  | cons o os ih => exact ih _ (step1 s o h)

example : RAlong Loads RSt.fresh [.new 1 true, .new 2 false, .new 3 true, .fromTriples 4 (some false), .fromTriples 1 (some true)] ∧
    (rrun RSt.fresh [.new 1 true, .new 2 false, .new 3 true, .fromTriples 4 (some false), .fromTriples 1 (some true)]).reg = [1, 2, 4] := by
  refine ⟨⟨?_, ?_, ?_, ?_, ?_, trivial⟩, by decide⟩
  · unfold Loads; decide
  · unfold Loads; decide
  · unfold Loads; decide
  · unfold Loads; decide
  · unfold Loads; decide

/-- Finding: an object that is not a wrapper becomes the root if it is received or loaded first. -/
theorem received_non_wrapper_becomes_root :
    (rstep RSt.fresh (.fromTriples 2 (some false))).1 = .ok () ∧ (rrun RSt.fresh [.fromTriples 2 (some false)]).root = some 2 := by
  constructor <;> rfl

/-- Finding: a second wrapper that is received or loaded raises, but stays registered. -/
theorem rejected_second_wrapper_registered :
    let s := rrun RSt.fresh [.new 1 true]
    (rstep s (.fromTriples 2 (some true))).1 = .error .runtimeError ∧ (rstep s (.fromTriples 2 (some true))).2.reg = [1, 2] ∧
    (rstep s (.fromTriples 2 (some true))).2.ty 2 = some true := by
  decide

end Osp.Sess
