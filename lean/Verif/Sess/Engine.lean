import Verif.Sess.Lemmas
/-!
# Whatever a backend does in the engine context leaves the user's buffers alone (C13)
-/
namespace Osp.Sess

/-- Programs a backend can run: any mixture of session operations, depending on the state it sees, with exceptions raised and caught and with nested
engine contexts. -/
inductive Prog where
  | skip
  | raise (e : PyErr)
  | create (u : Uid) (c : Content)
  | store (u : Uid) (c : Content)
  | notifyUpdate (u : Uid)
  | modify (u : Uid) (f : Content → Content)
  | delete (u : Uid)
  | drop (u : Uid)
  | expire (us : List Uid)
  | read (u : Uid)
  | load (us : List Uid)
  | loadByIri (u : Uid)
  | loadByOclass (us : List Uid)
  | refresh (us : List Uid)
  | seq (p q : Prog)
  /-- `try: p except: q` -/
  | tryCatch (p q : Prog)
  /-- `with EngineContext(session): p`, buffers.py:55-80 -/
  | nested (p : Prog)
  /-- go on depending on the state -/
  | look (f : St → Prog)

/-- Running such a program. -/
def Prog.run (P : Params) : Prog → St → Res Unit
  | .skip, s => (.ok (), s)
  | .raise e, s => (.error e, s)
  | .create u c, s => s.create P u c
  | .store u c, s => (.ok (), s.store u c)
  | .notifyUpdate u, s => s.notifyUpdate u
  | .modify u f, s => s.modify P u f
  | .delete u, s => s.delete P u
  | .drop u, s => s.deleteTriples P u
  | .expire us, s => (.ok (), (s.expire us).2)
  | .read u, s => s.notifyRead P u
  | .load us, s => (s.load P us).unit
  | .loadByIri u, s => (s.loadByIri u).unit
  | .loadByOclass us, s => (s.loadByOclass us).unit
  | .refresh us, s => s.refresh P us
  | .seq p q, s => match p.run P s with
    | (.ok _, s) => q.run P s
    | (.error e, s) => (.error e, s)
  | .tryCatch p q, s => match p.run P s with
    | (.ok _, s) => (.ok (), s)
    | (.error _, s) => q.run P s
  | .nested p, s => s.inEngine (p.run P)
  | .look f, s => (f s).run P s

/-- Same user buffers and same context. -/
def Keeps (s s' : St) : Prop := s'.user = s.user ∧ s'.ctx = s.ctx

theorem Keeps.rfl {s : St} : Keeps s s := ⟨Eq.refl _, Eq.refl _⟩
theorem Keeps.trans {a b c : St} (h : Keeps a b) (k : Keeps b c) : Keeps a c := ⟨k.1.trans h.1, k.2.trans h.2⟩

theorem keeps_setBuf {s : St} (hc : s.ctx = .engine) (b : Buf) : Keeps s (s.setBuf b) := by
  unfold St.setBuf
  rw [hc]
  exact ⟨rfl, hc.symm ▸ rfl⟩

theorem keeps_store {s : St} (hc : s.ctx = .engine) (u : Uid) (c : Content) : Keeps s (s.store u c) := by
  unfold St.store
  dsimp only
  generalize (if u ∈ s.reg then _ else _ : Buf) = b
  exact keeps_setBuf hc b

theorem keeps_notifyUpdate {s : St} (hc : s.ctx = .engine) (u : Uid) : Keeps s (s.notifyUpdate u).2 := by
  unfold St.notifyUpdate
  split
  · exact Keeps.rfl
  · split
    · exact keeps_setBuf hc _
    · exact Keeps.rfl

theorem keeps_notifyDelete {s : St} (hc : s.ctx = .engine) (u : Uid) : Keeps s (s.notifyDelete u) := by
  unfold St.notifyDelete
  dsimp only
  split
  · exact keeps_setBuf hc _
  · split
    · exact keeps_setBuf hc _
    · split
      · exact keeps_setBuf hc _
      · exact Keeps.rfl

theorem keeps_deleteTriples {P : Params} {s : St} (hc : s.ctx = .engine) (u : Uid) : Keeps s (s.deleteTriples P u).2 := by
  unfold St.deleteTriples
  split
  · exact Keeps.rfl
  · exact keeps_notifyDelete (s := { s with reg := del s.reg u, det := Function.update s.det u (P.typePart (s.g u)), g := Function.update s.g u ∅ }) hc u

theorem keeps_expire (s : St) (us : List Uid) : Keeps s (s.expire us).2 := ⟨rfl, rfl⟩

theorem keeps_loadByIri {s : St} (hc : s.ctx = .engine) (u : Uid) : Keeps s (s.loadByIri u).2 := by
  unfold St.loadByIri
  dsimp only
  split
  · exact Keeps.rfl
  · generalize ht : (if u ∈ s.reg then _ else _ : St) = t
    have hk : Keeps s t := by
      rw [← ht]
      split
      · exact ⟨rfl, rfl⟩
      · exact keeps_store (s := { s with expired := del s.expired u }) hc u ∅
    have h2 := keeps_notifyUpdate (s := { t with g := Function.update t.g u (t.g u ∪ s.db (s.slot u)) }) (hk.2.trans hc) u
    split
    · rename_i h; rw [h] at h2; exact hk.trans h2
    · rename_i h; rw [h] at h2; exact hk.trans h2

theorem keeps_afterLoad {P : Params} {s : St} (hc : s.ctx = .engine) (uids : List Uid) (old : Option Content) (u : Uid) (new : Option Uid) :
    Keeps s (St.afterLoad P uids old u new s).2 := by
  unfold St.afterLoad
  split
  · exact Keeps.rfl
  · rename_i o
    dsimp only
    generalize ht : (if s.root = some u then s else _ : St) = t
    have hk : Keeps s t := by
      rw [← ht]
      split
      · exact Keeps.rfl
      · exact keeps_expire s _
    split
    · have h2 := keeps_deleteTriples (P := P) (s := t) (hk.2.trans hc) u
      split
      · rename_i h; rw [h] at h2; exact hk.trans h2
      · rename_i h; rw [h] at h2; exact hk.trans h2
    · exact hk

theorem keeps_loadStep {P : Params} {s : St} (hc : s.ctx = .engine) (uids missing : List Uid) (u : Uid) :
    Keeps s (St.loadStep P uids missing u s).2 := by
  unfold St.loadStep
  split
  · split <;> exact Keeps.rfl
  · have h1 := keeps_loadByIri hc u
    dsimp only
    split
    · rename_i h; rw [h] at h1; exact h1
    · rename_i h; rw [h] at h1
      exact h1.trans (keeps_afterLoad (h1.2.trans hc) _ _ _ _)

theorem keeps_inEngine {α : Type} (s : St) (f : St → Res α) (hf : ∀ t : St, t.ctx = .engine → Keeps t (f t).2) : Keeps s (s.inEngine f).2 := by
  unfold St.inEngine
  dsimp only
  refine ⟨?_, rfl⟩
  have := (hf { (if s.ctx ≠ .engine then { s with engine := .empty } else s) with ctx := .engine } rfl).1
  refine this.trans ?_
  dsimp only
  split <;> rfl

theorem keeps_loadLoop {P : Params} (uids missing : List Uid) : ∀ (us : List Uid) (s : St), Keeps s (St.loadLoop P uids missing us s).2 := by
  intro us
  induction us with
  | nil => intro s; exact Keeps.rfl
  | cons u us ih =>
    intro s
    have h1 := keeps_inEngine s (St.loadStep P uids missing u) (fun t ht => keeps_loadStep ht uids missing u)
    unfold St.loadLoop
    split
    · rename_i h; rw [h] at h1; exact h1
    · rename_i s1 h; rw [h] at h1
      have h2 := ih s1
      split
      · rename_i k; rw [k] at h2; exact h1.trans h2
      · rename_i k; rw [k] at h2; exact h1.trans h2

theorem keeps_load {P : Params} (s : St) (us : List Uid) : Keeps s (s.load P us).2 := by
  unfold St.load
  split
  · exact Keeps.rfl
  · exact (show Keeps s { s with expired := s.expired.filter (· ∉ us.filter (· ∈ s.expired)) } from ⟨rfl, rfl⟩).trans (keeps_loadLoop _ _ _ _)

theorem keeps_refresh {P : Params} (s : St) (us : List Uid) : Keeps s (s.refresh P us).2 := by
  unfold St.refresh
  split
  · exact Keeps.rfl
  · have hp : s.expire us = ((s.expire us).1, (s.expire us).2) := rfl
    rw [hp]
    dsimp only
    have h1 := (keeps_expire s us).trans (keeps_load (P := P) (s.expire us).2 (s.expire us).1)
    split
    · rename_i h; rw [h] at h1; exact h1
    · rename_i h; rw [h] at h1; exact h1

theorem keeps_notifyRead {P : Params} (s : St) (u : Uid) : Keeps s (s.notifyRead P u).2 := by
  unfold St.notifyRead
  split
  · exact keeps_refresh s [u]
  · exact Keeps.rfl

theorem keeps_loadFound : ∀ (us : List Uid) (s : St), Keeps s (s.loadFound us).2 := by
  intro us
  induction us with
  | nil => intro s; exact Keeps.rfl
  | cons u us ih =>
    intro s
    have h1 := keeps_inEngine s (fun s => s.loadByIri u) (fun t ht => keeps_loadByIri ht u)
    unfold St.loadFound
    split
    · rename_i h; rw [h] at h1; exact h1
    · rename_i s1 h; rw [h] at h1
      have h2 := ih s1
      split
      · rename_i k; rw [k] at h2; exact h1.trans h2
      · rename_i k; rw [k] at h2; exact h1.trans h2

theorem keeps_loadByOclass (us : List Uid) (s : St) : Keeps s (s.loadByOclass us).2 := by
  unfold St.loadByOclass
  split
  · exact Keeps.rfl
  · exact keeps_loadFound us s

theorem keeps_loadAll : ∀ (us : List Uid) (s : St), s.ctx = .engine → Keeps s (s.loadAll us).2 := by
  intro us
  induction us with
  | nil => intro s _; exact Keeps.rfl
  | cons u us ih =>
    intro s hc
    have h1 := keeps_loadByIri hc u
    unfold St.loadAll
    split
    · rename_i h; rw [h] at h1; exact h1
    · rename_i h; rw [h] at h1
      exact h1.trans (ih _ (h1.2.trans hc))

theorem keeps_create {P : Params} {s : St} (hc : s.ctx = .engine) (u : Uid) (c : Content) : Keeps s (s.create P u c).2 := by
  unfold St.create
  split
  · exact Keeps.rfl
  · dsimp only
    have h1 := keeps_store hc u c
    split
    · exact h1.trans (keeps_inEngine _ _ (fun t ht => keeps_loadAll _ t ht))
    · exact h1

theorem keeps_modify {P : Params} {s : St} (hc : s.ctx = .engine) (u : Uid) (f : Content → Content) : Keeps s (s.modify P u f).2 := by
  have h1 := keeps_notifyRead (P := P) s u
  unfold St.modify
  split
  · rename_i h; rw [h] at h1; exact h1
  · rename_i s1 h; rw [h] at h1
    dsimp only
    generalize ht : (if u ∈ s1.reg then _ else _ : St) = t
    have h2 : Keeps s1 t := by rw [← ht]; split <;> exact ⟨rfl, rfl⟩
    exact (h1.trans h2).trans (keeps_notifyUpdate (h2.2.trans (h1.2.trans hc)) u)

theorem keeps_delete {P : Params} {s : St} (hc : s.ctx = .engine) (u : Uid) : Keeps s (s.delete P u).2 := by
  have h1 := keeps_notifyRead (P := P) s u
  unfold St.delete
  split
  · rename_i h; rw [h] at h1; exact h1
  · rename_i h; rw [h] at h1
    exact h1.trans (keeps_deleteTriples (h1.2.trans hc) u)

theorem keeps_prog {P : Params} : ∀ (p : Prog) (s : St), s.ctx = .engine → Keeps s (p.run P s).2 := by
  intro p
  induction p with
  | skip => intro s _; exact Keeps.rfl
  | raise e => intro s _; exact Keeps.rfl
  | create u c => intro s hc; exact keeps_create hc u c
  | store u c => intro s hc; exact keeps_store hc u c
  | notifyUpdate u => intro s hc; exact keeps_notifyUpdate hc u
  | modify u f => intro s hc; exact keeps_modify hc u f
  | delete u => intro s hc; exact keeps_delete hc u
  | drop u => intro s hc; exact keeps_deleteTriples hc u
  | expire us => intro s _; exact keeps_expire s us
  | read u => intro s _; exact keeps_notifyRead s u
  | load us => intro s _; exact keeps_load s us
  | loadByIri u => intro s hc; exact keeps_loadByIri hc u
  | loadByOclass us => intro s _; exact keeps_loadByOclass us s
  | refresh us => intro s _; exact keeps_refresh s us
  | seq p q ihp ihq =>
    intro s hc
    have h1 := ihp s hc
    unfold Prog.run
    split
    · rename_i h; rw [h] at h1; exact h1.trans (ihq _ (h1.2.trans hc))
    · rename_i h; rw [h] at h1; exact h1
  | tryCatch p q ihp ihq =>
    intro s hc
    have h1 := ihp s hc
    unfold Prog.run
    split
    · rename_i h; rw [h] at h1; exact h1
    · rename_i h; rw [h] at h1; exact h1.trans (ihq _ (h1.2.trans hc))
  | nested p ih => intro s _; exact keeps_inEngine s _ ih
  | look f ih => intro s hc; exact ih s s hc

/-- **C13.** Whatever a backend does inside an engine context, nested to any depth and ending normally or with an exception, the user's buffers are the
same as before and so is the buffer context. -/
theorem engine_keeps_user_buffers (P : Params) (s : St) (p : Prog) :
    (s.inEngine (p.run P)).2.user = s.user ∧ (s.inEngine (p.run P)).2.ctx = s.ctx :=
  keeps_inEngine s _ (fun t ht => keeps_prog p t ht)

/-- **C13** for the operations a user calls that only load: they run in the engine context on their own account. -/
theorem loading_keeps_user_buffers (P : Params) (s : St) :
    (∀ us, (s.load P us).2.user = s.user ∧ (s.load P us).2.ctx = s.ctx) ∧
    (∀ us, (s.loadByOclass us).2.user = s.user ∧ (s.loadByOclass us).2.ctx = s.ctx) ∧
    (∀ us, (s.refresh P us).2.user = s.user ∧ (s.refresh P us).2.ctx = s.ctx) ∧
    (∀ u, (s.notifyRead P u).2.user = s.user ∧ (s.notifyRead P u).2.ctx = s.ctx) :=
  ⟨fun us => keeps_load s us, fun us => keeps_loadByOclass us s, fun us => keeps_refresh s us, fun u => keeps_notifyRead s u⟩

/-! The hypotheses are met by every state and program; a concrete case: a backend that creates an object, fails in a nested context, catches the error. -/
example : let P : Params := { diff := fun _ _ => [], nb := fun _ => [], typePart := id, order := id, order_mem := fun _ _ => Iff.rfl }
    let s : St := (((St.opened (fun _ => ∅)).create P 1 {7}).2)
    let r := s.inEngine (Prog.run P (.tryCatch (.seq (.store 5 {3}) (.nested (.seq (.drop 5) (.raise .valueError)))) (.modify 1 id)))
    s.user = ⟨[1], [], []⟩ ∧ r.2.user = ⟨[1], [], []⟩ ∧ r.2.engine = ⟨[], [1], []⟩ ∧ r.2.ctx = .user := by
  decide

end Osp.Sess
