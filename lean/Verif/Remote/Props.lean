import Verif.Remote.Connect
/-!
# A database session used through a client behaves like the session itself (C92)
-/
namespace Osp.Remote
open Osp.Sess Osp.Sync

variable {r : Uid} {m : View} {s : RSt} {P : Params}

/-- One operation in normal use: it returns what the specification says, and client, server and database are again as specified. -/
theorem step_good (hT : HasType P) (h : Good r m s) {o : ROp} (hs : Safe r m s o) : (step P s o).1 = m.result o ∧ Good r (m.step o) (step P s o).2 := by
  cases o with
  | create u x =>
    obtain ⟨e, k⟩ := h.create hs.1 hs.2.1 hs.2.2
    unfold step
    dsimp only
    rw [e]
    exact ⟨rfl, k⟩
  | modify u f =>
    obtain ⟨e, k⟩ := h.modify hT hs.1 hs.2.1 hs.2.2
    unfold step
    dsimp only
    rw [e]
    exact ⟨rfl, k⟩
  | delete u =>
    obtain ⟨e, k⟩ := h.delete hT hs.1 hs.2
    unfold step
    dsimp only
    rw [e]
    exact ⟨rfl, k⟩
  | read u =>
    obtain ⟨e, k, -⟩ := h.read hT u
    unfold step
    dsimp only
    rw [e]
    exact ⟨rfl, k⟩
  | load u => exact h.load hT hs.1 hs.2
  | expire us => exact ⟨rfl, h.expire us⟩
  | commit net fail =>
    cases fail with
    | none =>
      obtain ⟨e, k, -⟩ := h.commit net hs
      exact ⟨e, k⟩
    | some k =>
      obtain ⟨e, g⟩ := h.commit_fail net hs.1 hs.2
      exact ⟨e, g⟩

theorem run_good (hT : HasType P) : ∀ (ops : List ROp) (m : View) (s : RSt), Good r m s → Along P r m s ops → Good r (m.run ops) (run P s ops)
  | [], _, _, h, _ => h
  | _ :: os, _, _, h, ha => run_good hT os _ _ (step_good hT h ha.1).2 ha.2

theorem along_append : ∀ (a b : List ROp) (m : View) (s : RSt), Along P r m s (a ++ b) → Along P r m s a ∧ Along P r (m.run a) (run P s a) b
  | [], _, _, _, h => ⟨trivial, h⟩
  | _ :: os, b, _, _, h => ⟨⟨h.1, (along_append os b _ _ h.2).1⟩, (along_append os b _ _ h.2).2⟩

/-- **C92.** For every stored database, every wrapper and every history in normal use - creations, changes, deletions, reads, loads, expirations, commits, failing commits and
commits whose answer is lost - through a client: connecting succeeds, every operation returns or raises what the specification says, and afterwards the client's session has
exactly the objects and triples of the specification and the database exactly what it says is stored: everything the client showed at the last commit that was executed. Partial: `Safe`
lists what is excluded; `lost_commit`, `wrapper_gets_both_values` and `reload_revives` show that the property fails there. -/
theorem remote_refines_partial (hT : HasType P) (db : Uid → Content) (hr : r ≠ 0) (x : Content) (hx : x ≠ ∅) (ops : List ROp)
    (h : Along P r (View.open P db r x) (connect P db r x).2 ops) :
    (connect P db r x).1 = .ok () ∧ Shows r ((View.open P db r x).run ops) (run P (connect P db r x).2 ops) ∧
      ∀ pre o post, ops = pre ++ o :: post → (step P (run P (connect P db r x).2 pre) o).1 = ((View.open P db r x).run pre).result o := by
  obtain ⟨e, g⟩ := connect_good P db hr hx
  refine ⟨e, (run_good hT ops _ _ g h).shows, ?_⟩
  rintro pre o post rfl
  obtain ⟨h1, h2⟩ := along_append pre (o :: post) _ _ h
  exact (step_good hT (run_good hT pre _ _ g h1) h2.1).1

/-- **C92.** A commit through a client that reaches the server stores what the client shows, whether or not the answer arrives; nothing is left to be committed. -/
theorem remote_commit_stores_partial (hT : HasType P) (db : Uid → Content) (hr : r ≠ 0) (x : Content) (hx : x ≠ ∅) (ops : List ROp)
    (h : Along P r (View.open P db r x) (connect P db r x).2 ops) (net : Sync.Net) (hn : net ≠ .noRequest) (s' : RSt)
    (hs : s' = (commit (run P (connect P db r x).2 ops) net none).2) :
    (∀ u ∈ s'.c.reg, s'.t.db (if u = r then 0 else u) = s'.c.g u) ∧ s'.c.user = .empty ∧ s'.t.user = .empty ∧
      (∀ u, u ∈ s'.c.reg ↔ u ∈ (run P (connect P db r x).2 ops).c.reg) ∧ ∀ u ∈ s'.c.reg, s'.c.g u = (run P (connect P db r x).2 ops).c.g u := by
  subst hs
  obtain ⟨-, g⟩ := connect_good P db hr hx
  have k := run_good hT ops _ _ g h
  obtain ⟨-, k2, k3, k4⟩ := k.commit net hn
  have hh : ∀ u, u ∈ (commit (run P (connect P db r x).2 ops) net none).2.c.reg ↔ u ∈ (run P (connect P db r x).2 ops).c.reg := fun u => (k2.has u).trans (k.has u).symm
  have hv : ∀ u ∈ (commit (run P (connect P db r x).2 ops) net none).2.c.reg, (commit (run P (connect P db r x).2 ops) net none).2.c.g u = (run P (connect P db r x).2 ops).c.g u := by
    intro u hu
    rw [k2.shows.view u hu, k.shows.view u ((hh u).1 hu)]
    rfl
  refine ⟨fun u hu => ?_, k3, k4, hh, hv⟩
  have hm := (k2.has u).1 hu
  rw [k2.shows.stored u (has_nonzero k2 hm), k2.shows.view u hu]
  rfl

/-! ### the same history without client and server -/

/-- The operation on a session without a transport. -/
def ROp.locally : ROp → Op
  | .create u x => .create u x
  | .modify u f => .modify u f
  | .delete u => .delete u
  | .read u => .read u
  | .load u => .load [u]
  | .expire us => .expire us
  | .commit _ fail => .commit fail

theorem view_step_local (m : View) (o : ROp) : (m.step o).view = specView m.view o.locally ∧ (m.step o).stored = specStored m.view m.stored o.locally := by
  cases o with
  | commit net fail => cases fail <;> exact ⟨rfl, rfl⟩
  | _ => exact ⟨rfl, rfl⟩

theorem view_run_local : ∀ (ops : List ROp) (m : View), ((m.run ops).view, (m.run ops).stored) = specRun m.view m.stored (ops.map ROp.locally)
  | [], _ => rfl
  | o :: os, m => by
    have := view_run_local os (m.step o)
    rw [(view_step_local m o).1, (view_step_local m o).2] at this
    exact this

/-- **C92.** The same history with a client and without one, on the same database: the objects of the client have the triples they have in the session without a client, and the same is
stored - if the database was empty, or the wrapper was created with triples that are stored for it. Partial: otherwise the wrapper differs, `wrapper_gets_both_values`. -/
theorem remote_like_local_partial (hT : HasType P) (db : Uid → Content) (hr : r ≠ 0) (x : Content) (hx : x ≠ ∅) (hdb : db 0 = ∅ ∨ x ⊆ db 0) (ops : List ROp)
    (h : Along P r (View.open P db r x) (connect P db r x).2 ops) (hl : SafeSession P db r x (ops.map ROp.locally)) :
    (∀ u ∈ (run P (connect P db r x).2 ops).c.reg, (run P (connect P db r x).2 ops).c.g u = (session P db r x (ops.map ROp.locally)).L u ∧
      (u ∈ (session P db r x (ops.map ROp.locally)).reg → (session P db r x (ops.map ROp.locally)).g u = (run P (connect P db r x).2 ops).c.g u)) ∧
      ∀ u, u ≠ 0 → (run P (connect P db r x).2 ops).t.db (if u = r then 0 else u) = (session P db r x (ops.map ROp.locally)).stored u := by
  obtain ⟨-, g⟩ := connect_good P db hr hx
  have k := run_good hT ops _ _ g h
  have e := view_run_local ops (View.open P db r x)
  have e1 : (View.open P db r x).view = specOpen db r x := by
    funext u
    show (if u = r then db 0 ∪ x else db u) = if u = r then (if db 0 = ∅ then x else db 0) else db u
    by_cases hu : u = r
    · rw [if_pos hu, if_pos hu]
      by_cases hz : db 0 = ∅
      · rw [if_pos hz, hz, empty_union']
      · rw [if_neg hz]
        exact Finset.union_eq_left.2 (hdb.resolve_left hz)
    · rw [if_neg hu, if_neg hu]
  have e2 : (View.open P db r x).stored = specOpenStored db r := rfl
  rw [e1, e2] at e
  have hc : ∀ o ∈ ops.map ROp.locally, Closed o := by
    intro o ho
    obtain ⟨o', -, rfl⟩ := List.mem_map.1 ho
    cases o' <;> trivial
  have hw := session_refines_partial P db r x _ hl hc
  refine ⟨fun u hu => ?_, fun u hu => ?_⟩
  · have hu0 := has_nonzero k ((k.has u).1 hu)
    obtain ⟨w1, -, w3⟩ := hw u hu0
    have hv := k.shows.view u hu
    rw [show ((View.open P db r x).run ops).view = _ from congrArg Prod.fst e] at hv
    exact ⟨hv.trans w1.symm, fun q => (w3 q).trans hv.symm⟩
  · obtain ⟨-, w2, -⟩ := hw u hu
    have hv := k.shows.stored u hu
    rw [show ((View.open P db r x).run ops).stored = _ from congrArg Prod.snd e] at hv
    exact hv.trans w2.symm

end Osp.Remote
