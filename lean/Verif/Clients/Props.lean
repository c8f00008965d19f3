import Verif.Clients.Commit
/-!
# Several clients in front of one database (C99)
-/
namespace Osp.Clients
open Osp.Sess Osp.Sync Osp.Remote

variable {r : Uid} {m : Mem} {s : RSt} {P : Params}

/-- One call of a client in normal use. -/
theorem Fit.step (hT : HasType P) (h : Fit r m s) {o : ROp} (hs : Safe r m s o) :
    (Remote.step P s o).1 = result (Remote.step P s o).2 o ∧ Fit r (m.step o (Remote.step P s o).1) (Remote.step P s o).2 ∧ Effect r m s o (Remote.step P s o).2 := by
  cases o with
  | create u x =>
    obtain ⟨e, k, f⟩ := h.create hs.1 hs.2.1 hs.2.2 (Remote.step P s (.create u x)).1
    refine ⟨?_, k, f⟩
    unfold Remote.step
    dsimp only
    rw [e]
    rfl
  | modify u f =>
    obtain ⟨e, k, f'⟩ := h.modify hT hs.1 hs.2.1 hs.2.2 (Remote.step P s (.modify u f)).1
    refine ⟨?_, k, f'⟩
    unfold Remote.step
    dsimp only
    rw [e]
    rfl
  | delete u =>
    obtain ⟨e, k, f⟩ := h.delete hT hs.1 hs.2.1 hs.2.2 (Remote.step P s (.delete u)).1
    refine ⟨?_, k, f⟩
    unfold Remote.step
    dsimp only
    rw [e]
    rfl
  | read u =>
    obtain ⟨e, k, -, f, g, -⟩ := h.read hT u
    refine ⟨?_, k, g, f⟩
    unfold Remote.step
    dsimp only
    rw [e]
    rfl
  | load u =>
    show (Remote.load P s u).1 = .ok [if shown (Remote.load P s u).2 u = none then none else some u] ∧ Fit r (m.step (.load u) (Remote.load P s u).1) (Remote.load P s u).2 ∧ _
    by_cases hr : shown s u = none
    · have hm : ¬ m.used u := hs.2.resolve_left (fun q => q hr)
      have hne : (Except.ok (ε := PyErr) [(if s.t.db u = ∅ then none else some u : Option Uid)] ≠ .ok [none]) ↔ s.t.db u ≠ ∅ := by
        by_cases q : s.t.db u = ∅
        · rw [if_pos q]; exact ⟨fun k => absurd rfl k, fun k => absurd q k⟩
        · rw [if_neg q]; exact ⟨fun _ => q, fun _ => by simp⟩
      have e0 := (h.load_new (P := P) hs.1 hm (m' := ⟨m.changed, m.fresh, fun v => (v = u ∧ s.t.db u ≠ ∅) ∨ m.used v⟩) rfl rfl (fun _ => Iff.rfl)).1
      obtain ⟨e, k, f, g⟩ := h.load_new (P := P) hs.1 hm (m' := m.step (.load u) (Remote.load P s u).1) rfl rfl (fun v => by
        show (v = u ∧ (Remote.load P s u).1 ≠ .ok [none]) ∨ m.used v ↔ _
        rw [e0, hne])
      refine ⟨?_, k, ⟨_, g, fun q => absurd hr q, fun _ => rfl⟩, f⟩
      rw [g, Function.update_self, e]
      unfold asObject
      by_cases q : s.t.db u = ∅
      · rw [if_pos q, if_pos q, if_pos rfl]
      · rw [if_neg q, if_neg q, if_neg (by simp)]
    · obtain ⟨e, k, f, y, g1, g2⟩ := h.load_old hT (shown_some hr)
      have hu : m.used u := by
        by_contra q; exact (h.new u q).1 (shown_some hr)
      have hm : m.step (.load u) (Remote.load P s u).1 = m := by
        show Mem.mk m.changed m.fresh _ = _
        have : (fun v => (v = u ∧ (Remote.load P s u).1 ≠ .ok [none]) ∨ m.used v) = m.used := by
          funext v
          apply propext
          constructor
          · rintro (⟨rfl, -⟩ | q)
            · exact hu
            · exact q
          · exact Or.inr
        rw [this]
      refine ⟨e, by rw [hm]; exact k, ⟨y, g2, fun _ => g1, fun q => absurd q hr⟩, f⟩
  | expire us => exact ⟨rfl, h.expire us, rfl, rfl⟩
  | commit net fail =>
    cases fail with
    | none =>
      obtain ⟨e, k, f, -⟩ := h.commit net hs (Remote.step P s (.commit net none)).1
      exact ⟨e, k, f⟩
    | some k =>
      obtain ⟨e, g, f⟩ := h.commit_fail net hs.1 hs.2
      exact ⟨e, g, f⟩

/-- What is stored for the wrapper stays stored. -/
theorem Effect.zero (h : Fit r m s) {o : ROp} {s' : RSt} (e : Effect r m s o s') : s.t.db 0 ≠ ∅ → s'.t.db 0 ≠ ∅ := by
  intro hd
  cases o with
  | commit net fail =>
    cases fail with
    | none => rw [e.2.1]; exact written_root h
    | some k => rw [e.2]; exact hd
  | create u x => rw [e.2]; exact hd
  | modify u f => rw [e.2]; exact hd
  | delete u => rw [e.2]; exact hd
  | read u => rw [e.2]; exact hd
  | load u => rw [e.2]; exact hd
  | expire us => rw [e.2]; exact hd

/-- Connecting. -/
theorem connect_fit (P : Params) (db : Uid → Content) {r : Uid} (hr : r ≠ 0) {x : Content} (hx : x ≠ ∅) :
    (Remote.connect P db r x).1 = .ok () ∧ Fit r (Mem.connected r (Remote.connect P db r x).2) (Remote.connect P db r x).2 ∧ (Remote.connect P db r x).2.t.db = db ∧
      ∀ u, shown (Remote.connect P db r x).2 u = if u = r then some (db 0 ∪ x) else if u ∈ P.nb (db 0) ∧ u ≠ 0 then asObject (db u) else none := by
  obtain ⟨e, g, ecu, etu, edb, egn⟩ := connect_more P db hr hx
  obtain ⟨s, hs⟩ : ∃ s, s = (Remote.connect P db r x).2 := ⟨_, rfl⟩
  rw [← hs] at g ecu etu edb egn ⊢
  have hcu : ∀ u, u ∉ s.c.user.uids := by rw [ecu]; exact uids_empty
  have htu : ∀ u, u ∈ s.t.user.uids ↔ u = r := by intro u; rw [etu]; simp [Buf.uids]
  have hreg : ∀ u, u ∈ s.t.reg ↔ u ∈ s.c.reg := fun u => ((g.sync.same u (hcu u)).1).symm
  have hcr : r ∈ s.c.reg := (g.has r).2 g.hasr
  refine ⟨e, ⟨g.sync, g.croot, g.troot, hcr, g.tr, ?_, ⟨g.zero.1, g.zero.2.1, fun q => g.zero.2.2.1 ((g.has 0).1 q), g.zero.2.2.2⟩, ?_, g.texp, ?_, ?_, ?_, ?_, ?_, ?_, ?_, ?_, ?_, ?_⟩, edb, ?_⟩
  · intro u hu
    have := (g.has u).1 hu
    rw [g.view u this]; exact g.full u this
  · intro u hu
    exact ⟨(g.has u).2 (g.cexp u hu).1, hcu u⟩
  · intro u hu
    rw [ecu] at hu
    exact absurd hu (by simp [Buf.empty])
  · exact fun q => absurd ((htu r).2 rfl) q
  · rintro u (q | q)
    · exact absurd q (hcu u)
    · exact (htu u).1 q
  · intro u hu
    exact Or.inr (Or.inl ((htu u).2 hu))
  · rintro u (q | q)
    · rw [ecu] at q; exact absurd q (by simp [Buf.empty])
    · rw [etu] at q
      show u = r
      simpa using q
  · intro u hu _
    obtain rfl : u = r := hu
    rw [etu]; exact Or.inr (by simp)
  · intro u _
    rw [etu, ecu]
    exact ⟨by simp, fun q => absurd q (by simp [Buf.empty])⟩
  · exact fun _ h => h
  · intro u hu
    obtain rfl : u = r := hu
    show shown s u ≠ none
    unfold shown
    rw [if_pos hcr]; simp
  · intro u hu
    have hn : u ∉ s.c.reg := by
      intro q
      refine hu (show shown s u ≠ none from ?_)
      unfold shown
      rw [if_pos q]; simp
    have ht : u ∉ s.t.reg := fun q => hn ((hreg u).1 q)
    refine ⟨hn, hcu u, g.unreg u fun q => hn ((g.has u).2 q), ht, fun q => ?_, egn u ht⟩
    obtain rfl := (htu u).1 q
    exact hn hcr
  · intro u
    unfold shown asObject
    by_cases hu : u ∈ s.c.reg
    · have k := (g.has u).1 hu
      rw [if_pos hu, g.view u k]
      show some (if u = r then db 0 ∪ x else db u) = _
      by_cases q : u = r
      · rw [if_pos q, if_pos q]
      · have z := Or.resolve_left k q
        rw [if_neg q, if_neg q, if_pos ⟨z.1, z.2.1⟩, if_neg z.2.2]
    · have k : ¬ (u = r ∨ (u ∈ P.nb (db 0) ∧ u ≠ 0 ∧ db u ≠ ∅)) := fun q => hu ((g.has u).2 q)
      rw [if_neg hu, if_neg (fun q => k (Or.inl q))]
      by_cases q : u ∈ P.nb (db 0) ∧ u ≠ 0
      · rw [if_pos q, if_pos]
        by_contra z
        exact k (Or.inr ⟨q.1, q.2, z⟩)
      · rw [if_neg q]

/-- Proof device; nothing in /repo: every client fits. -/
def AllFit (M : Mems) (w : World) : Prop := ∀ i, (w.cl i).c.root = none ∨ ∃ r, Fit r (M i) (w.at i)

variable {M : Mems} {w : World}

/-- Proof device; nothing in /repo: a call of another client. -/
theorem at_other (o : COp) {i j : Nat} (hj : j ≠ i) : ((step P w i o).2.cl j) = w.cl j ∧ (step P w i o).2.at j = ⟨(w.cl j).c, { (w.cl j).t with db := (step P w i o).2.db }⟩ := by
  have : (step P w i o).2.cl j = w.cl j := by
    cases o with
    | connect r x => exact Function.update_of_ne hj _ _
    | op o => exact Function.update_of_ne hj _ _
  refine ⟨this, ?_⟩
  unfold World.at
  rw [this]

theorem at_op (i : Nat) (o : ROp) : (step P w i (.op o)).2.at i = (Remote.step P (w.at i) o).2 := by
  have hc : (step P w i (.op o)).2.cl i = (Remote.step P (w.at i) o).2 := Function.update_self ..
  unfold World.at
  rw [hc]
  rfl

theorem at_connect (i : Nat) (r : Uid) (x : Content) : (step P w i (.connect r x)).2.at i = (Remote.connect P w.db r x).2 := by
  have hc : (step P w i (.connect r x)).2.cl i = (Remote.connect P w.db r x).2 := Function.update_self ..
  unfold World.at
  rw [hc]
  rfl

/-- One call of one of the clients in normal use. -/
theorem AllFit.step (hT : HasType P) (h : AllFit M w) {i : Nat} {o : COp} (hp : Proper M w i o) :
    Outcome P M w i o (step P w i o).1 (step P w i o).2 ∧ AllFit (M.step P w i o) (step P w i o).2 := by
  have hoth : (w.db 0 ≠ ∅ → (Clients.step P w i o).2.db 0 ≠ ∅) → (∃ r, Fit r (M.step P w i o i) ((Clients.step P w i o).2.at i)) → AllFit (M.step P w i o) (Clients.step P w i o).2 := by
    intro hd hi j
    by_cases hj : j = i
    · subst hj; exact Or.inr hi
    · rw [(at_other o hj).1, (at_other o hj).2]
      rcases h j with q | ⟨r, q⟩
      · exact Or.inl q
      · have hM : M.step P w i o j = M j := by cases o <;> exact Function.update_of_ne hj _ _
        rw [hM]
        exact Or.inr ⟨r, q.other _ hd⟩
  have hsh : ∀ j, j ≠ i → shown ((Clients.step P w i o).2.at j) = shown (w.at j) := by
    intro j hj
    rw [(at_other o hj).2]; rfl
  cases o with
  | connect r x =>
    obtain ⟨k1, k2, k3, k4⟩ := connect_fit P w.db hp.1 hp.2
    have hdb : (Clients.step P w i (.connect r x)).2.db = w.db := k3
    refine ⟨⟨hsh, ?_, hdb, ?_⟩, hoth (fun q => by rw [hdb]; exact q) ⟨r, ?_⟩⟩
    · show Except.map _ (Remote.connect P w.db r x).1 = _
      rw [k1]; rfl
    · rw [at_connect]; exact k4
    · show Fit r (Function.update M i _ i) _
      rw [Function.update_self, at_connect]
      exact k2
  | op o =>
    obtain ⟨r, hr, hs⟩ := hp
    obtain ⟨r', k⟩ := (h i).resolve_left (by rw [hr]; simp)
    obtain rfl : r' = r := Option.some.inj (k.croot.symm.trans hr)
    obtain ⟨e1, e2, e3⟩ := k.step hT hs
    refine ⟨⟨hsh, r', hr, ?_, ?_⟩, hoth (fun q => Effect.zero k e3 q) ⟨r', ?_⟩⟩
    · rw [at_op]; exact e1
    · rw [at_op]; exact e3
    · show Fit r' (Function.update M i _ i) _
      rw [Function.update_self, at_op]
      exact e2

theorem AllFit.start (db : Uid → Content) : AllFit Mems.start (World.start db) := fun _ => Or.inl rfl

theorem AllFit.run (hT : HasType P) : ∀ (hist : List (Nat × COp)) (M : Mems) (w : World), AllFit M w → Along P M w hist → AllFit (M.run P w hist) (run P w hist)
  | [], _, _, h, _ => h
  | (_, _) :: hist, _, _, h, ha => AllFit.run hT hist _ _ (h.step hT ha.1).2 ha.2

theorem along_append : ∀ (a b : List (Nat × COp)) (M : Mems) (w : World), Along P M w (a ++ b) → Along P M w a ∧ Along P (M.run P w a) (run P w a) b
  | [], _, _, _, h => ⟨trivial, h⟩
  | (_, _) :: a, b, _, _, h => have k := along_append a b _ _ h.2; ⟨⟨h.1, k.1⟩, k.2⟩

theorem run_append (P : Params) : ∀ (a b : List (Nat × COp)) (w : World), run P w (a ++ b) = run P (run P w a) b
  | [], _, _ => rfl
  | (_, _) :: a, b, _ => run_append P a b _

theorem mems_append (P : Params) : ∀ (a b : List (Nat × COp)) (M : Mems) (w : World), M.run P w (a ++ b) = (M.run P w a).run P (run P w a) b
  | [], _, _, _ => rfl
  | (_, _) :: a, b, _, _ => mems_append P a b _ _

/-- **C99.** For every stored database and every interleaving of the calls of any number of clients in normal use: every call returns or raises what the specification says, changes what its client
shows and what is stored as the specification says, and changes nothing of what the other clients show. Partial: `Safe` lists what is excluded. -/
theorem clients_refine_partial (hT : HasType P) (db : Uid → Content) (hist : List (Nat × COp)) (h : Along P Mems.start (World.start db) hist)
    (pre post : List (Nat × COp)) (i : Nat) (o : COp) (e : hist = pre ++ (i, o) :: post) (w : World) (hw : w = run P (World.start db) pre) :
    Outcome P (Mems.start.run P (World.start db) pre) w i o (step P w i o).1 (step P w i o).2 := by
  subst e hw
  obtain ⟨h1, h2⟩ := along_append pre _ _ _ h
  exact ((AllFit.run hT pre _ _ (AllFit.start db) h1).step hT h2.1).1

/-- A call that is not an executed commit of a client that changed what is stored at `k` leaves it alone. -/
theorem kept_step (hT : HasType P) (h : AllFit M w) {i : Nat} {o : COp} (hp : Proper M w i o) {k : Uid} (hk : ¬ Writes M w i o k) : (step P w i o).2.db k = w.db k := by
  obtain ⟨ho, -⟩ := h.step hT hp
  cases o with
  | connect r x => exact congrFun ho.2.2.1 k
  | op o =>
    obtain ⟨r, hr, -, he⟩ := ho.2
    obtain ⟨r', q⟩ := (h i).resolve_left (by rw [hr]; simp)
    obtain rfl : r' = r := Option.some.inj (q.croot.symm.trans hr)
    rw [at_op] at he
    show (Remote.step P (w.at i) o).2.t.db k = (w.at i).t.db k
    have hn : ∀ net, o = .commit net none → ∀ u, u ≠ 0 → place r' u = k → ¬ (M i).changed u := fun net e u hu hpl hc => hk ⟨net, r', u, by rw [e], hr, hu, hpl, hc⟩
    have hw : ∀ net, o = .commit net none → ∀ u, u ≠ 0 → place r' u = k → ∀ b, written (M i) (w.at i) u b = b := by
      intro net e u hu hpl b
      unfold written
      rw [if_neg (hn net e u hu hpl)]
    cases o with
    | commit net fail =>
      cases fail with
      | none =>
        by_cases k0 : k = 0
        · rw [k0, he.2.1]
          exact hw net rfl r' q.root0 (by rw [k0]; exact if_pos rfl) _
        · by_cases kr : k = r'
          · rw [kr]; exact he.2.2.1
          · rw [he.2.2.2 k k0 kr]
            exact hw net rfl k k0 (if_neg kr) _
      | some n => exact congrFun he.2 k
    | create u x => exact congrFun he.2 k
    | modify u f => exact congrFun he.2 k
    | delete u => exact congrFun he.2 k
    | read u => exact congrFun he.2 k
    | load u => exact congrFun he.2 k
    | expire us => exact congrFun he.2 k

theorem kept_run (hT : HasType P) {k : Uid} : ∀ (hist : List (Nat × COp)) (M : Mems) (w : World), AllFit M w → Along P M w hist → Untouched P k M w hist → (run P w hist).db k = w.db k
  | [], _, _, _, _, _ => rfl
  | (_, _) :: hist, _, _, h, ha, hu => (kept_run hT hist _ _ (h.step hT ha.1).2 ha.2 hu.2).trans (kept_step hT h ha.1 hu.1)

/-- **C99.** No call of any client changes what is stored, except executed commits, and these only for the objects their client created, modified or deleted since its last commit. -/
theorem stored_until_written_partial (hT : HasType P) (db : Uid → Content) (pre hist : List (Nat × COp)) (h : Along P Mems.start (World.start db) (pre ++ hist)) (k : Uid)
    (hu : Untouched P k (Mems.start.run P (World.start db) pre) (run P (World.start db) pre) hist) : (run P (World.start db) (pre ++ hist)).db k = (run P (World.start db) pre).db k := by
  obtain ⟨h1, h2⟩ := along_append pre hist _ _ h
  rw [run_append]
  exact kept_run hT hist _ _ (AllFit.run hT pre _ _ (AllFit.start db) h1) h2 hu

/-- **C99.** The last commit wins: if a client modified an object (and did not create it) since its last commit and commits, exactly what it shows is stored - whatever the other clients did and committed before -
and stays stored until another client that changed the object commits. -/
theorem last_commit_wins_partial (hT : HasType P) (db : Uid → Content) (pre hist : List (Nat × COp)) (i : Nat) (net : Sync.Net) (h : Along P Mems.start (World.start db) (pre ++ (i, .op (.commit net none)) :: hist))
    (M : Mems) (hM : M = Mems.start.run P (World.start db) pre) (w : World) (hw : w = run P (World.start db) pre) (r : Uid) (hr : (w.cl i).c.root = some r) (u : Uid) (y : Content)
    (hy : shown (w.at i) u = some y) (hc : (M i).changed u) (hf : ¬ (M i).fresh u)
    (hu : Untouched P (place r u) (M.step P w i (.op (.commit net none))) (step P w i (.op (.commit net none))).2 hist) :
    (run P (World.start db) (pre ++ (i, .op (.commit net none)) :: hist)).db (place r u) = y := by
  subst hM hw
  obtain ⟨h1, h2⟩ := along_append pre _ _ _ h
  have hF := AllFit.run hT pre _ _ (AllFit.start db) h1
  obtain ⟨ho, hF'⟩ := hF.step hT h2.1
  rw [run_append]
  refine (kept_run hT hist _ _ hF' h2.2 hu).trans ?_
  obtain ⟨r', hr', -, he⟩ := ho.2
  obtain rfl : r = r' := Option.some.inj (hr.symm.trans hr')
  obtain ⟨r', q⟩ := (hF i).resolve_left (by rw [hr]; simp)
  obtain rfl : r' = r := Option.some.inj (q.croot.symm.trans hr)
  have hw : ∀ b, written (Mems.start.run P (World.start db) pre i) ((run P (World.start db) pre).at i) u b = y := by
    intro b
    unfold written
    rw [if_pos hc, hy]
    dsimp only
    rw [if_neg hf]
  have hu0 : u ≠ 0 := by
    rintro rfl
    exact q.zero.2.2.1 (shown_some (by rw [hy]; simp))
  have hdb : (step P (run P (World.start db) pre) i (.op (.commit net none))).2.db = ((step P (run P (World.start db) pre) i (.op (.commit net none))).2.at i).t.db := rfl
  rw [hdb]
  unfold place
  by_cases k : u = r'
  · rw [if_pos k, he.2.1, ← k]; exact hw _
  · rw [if_neg k, he.2.2.2 u hu0 k]; exact hw _

/-- The state of a client does not change by what others do. -/
theorem others_run (i : Nat) : ∀ (hist : List (Nat × COp)) (M : Mems) (w : World), (∀ c ∈ hist, c.1 ≠ i) → (run P w hist).cl i = w.cl i ∧ M.run P w hist i = M i
  | [], _, _, _ => ⟨rfl, rfl⟩
  | (j, o) :: hist, M, w, h => by
    have hj : i ≠ j := fun q => h (j, o) (by simp) q.symm
    obtain ⟨a, b⟩ := others_run i hist (M.step P w j o) (step P w j o).2 fun c hc => h c (List.mem_cons_of_mem _ hc)
    refine ⟨a.trans (at_other o hj).1, b.trans ?_⟩
    cases o <;> exact Function.update_of_ne hj _ _

/-- Reading an expired object after others did something. -/
theorem read_later (hT : HasType P) {M : Mems} {w : World} (hF : AllFit M w) (hist : List (Nat × COp)) (ha : Along P M w hist) (i : Nat) (hi : ∀ c ∈ hist, c.1 ≠ i) (r : Uid) (hr : (w.cl i).c.root = some r) (u : Uid)
    (hx : u ∈ (w.cl i).c.expired) (hc : ¬ (M i).changed u) :
    shown ((step P (run P w hist) i (.op (.read u))).2.at i) u = asObject ((run P w hist).db (place r u)) := by
  obtain ⟨k1, k2⟩ := others_run (P := P) i hist M w hi
  have hF' := AllFit.run hT hist _ _ hF ha
  obtain ⟨r', q⟩ := (hF' i).resolve_left (by rw [k1, hr]; simp)
  have e : ((run P w hist).cl i).c.root = some r' := q.croot
  obtain rfl : r = r' := Option.some.inj (hr.symm.trans (k1 ▸ e))
  have := (q.read hT u).2.2.2.2.2 (by show u ∈ ((run P w hist).cl i).c.expired; rw [k1]; exact hx) (by rw [k2]; exact hc)
  rw [at_op]
  exact this

/-- **C99.** After a client expired an object it has and has not changed, or after its commit succeeded, the next read of this object shows what is stored at the moment of the read: everything the others committed in the
meantime. -/
theorem expired_read_latest_partial (hT : HasType P) (db : Uid → Content) (pre hist : List (Nat × COp)) (i : Nat) (o : ROp) (h : Along P Mems.start (World.start db) (pre ++ (i, .op o) :: hist))
    (M : Mems) (hM : M = Mems.start.run P (World.start db) pre) (w : World) (hw : w = run P (World.start db) pre) (r : Uid) (hr : (w.cl i).c.root = some r) (u : Uid) (hu : shown (w.at i) u ≠ none)
    (ho : (∃ us, o = .expire us ∧ u ∈ us ∧ ¬ (M i).changed u) ∨ o = .commit .fine none) (hi : ∀ c ∈ hist, c.1 ≠ i) (w' : World) (hw' : w' = run P (World.start db) (pre ++ (i, .op o) :: hist)) :
    shown ((step P w' i (.op (.read u))).2.at i) u = asObject (w'.db (place r u)) := by
  subst hM hw hw'
  obtain ⟨h1, h2⟩ := along_append pre _ _ _ h
  have hF := AllFit.run hT pre _ _ (AllFit.start db) h1
  obtain ⟨r', q⟩ := (hF i).resolve_left (by rw [hr]; simp)
  obtain rfl : r = r' := Option.some.inj (hr.symm.trans q.croot)
  obtain ⟨hO, hF'⟩ := hF.step hT h2.1
  have hreg := shown_some hu
  rw [run_append]
  have hcl : ((step P (run P (World.start db) pre) i (.op o)).2.cl i).c = (Remote.step P ((run P (World.start db) pre).at i) o).2.c := by
    show ((step P (run P (World.start db) pre) i (.op o)).2.at i).c = _
    rw [at_op]
  have hroot : ((step P (run P (World.start db) pre) i (.op o)).2.cl i).c.root = some r := by
    obtain ⟨r', hr', hs⟩ := h2.1
    obtain rfl : r = r' := Option.some.inj (hr.symm.trans hr')
    rw [hcl]
    exact (q.step hT hs).2.1.croot
  have hM : ((Mems.start.run P (World.start db) pre).step P (run P (World.start db) pre) i (.op o)) i = (Mems.start.run P (World.start db) pre i).step o (step P (run P (World.start db) pre) i (.op o)).1 := Function.update_self ..
  refine read_later hT hF' hist h2.2 i hi r hroot u ?_ ?_
  · rw [hcl]
    rcases ho with ⟨us, rfl, hus, hc⟩ | rfl
    · have hn : u ∉ ((run P (World.start db) pre).at i).c.user.uids := fun k => hc (q.ch1 u (Or.inl k))
      show u ∈ (((run P (World.start db) pre).at i).c.expire us).2.expired
      rw [mem_uids] at hn
      exact (expire_exact _ us u).1.2 ⟨hreg, Or.inr ⟨hus, fun k => hn (Or.inl k), fun k => hn (Or.inr (Or.inl k)), fun k => hn (Or.inr (Or.inr k))⟩⟩
    · have hs := h2.1
      exact (q.commit .fine (by simp) (.ok [])).2.2.2 rfl u hreg
  · rw [hM]
    rcases ho with ⟨us, rfl, hus, hc⟩ | rfl
    · exact hc
    · exact fun k => k

end Osp.Clients
