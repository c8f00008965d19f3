import Verif.Store.Steps
import Verif.Onto.Lemmas
/-! The loop of `_recursive_store` ends and copies exactly the reachable objects. -/
namespace Osp.Store
open Osp.Cuds

variable {E : Order} {O : Onto} {s0 src : Sess} {A B : Abs} {me n : Uid}

/-- The invariant of the loop variables: `P` are the objects copied so far. -/
structure LInv (O : Onto) (A B : Abs) (me n : Uid) (P : List Uid) (v : Vars) : Prop where
  nodup : (P ++ v.queue.map (·.1)).Nodup
  copied : ∀ u ∈ v.queue.map (·.1), Copied O B me n u
  flag : ∀ e ∈ v.queue, (e.2 = true ↔ A.cls e.1 ≠ none)
  stored : ∀ u, u ∈ v.stored ↔ u = me ∨ u ∈ P ∨ u ∈ v.queue.map (·.1)
  closed : ∀ a r b, a ∈ P → B.link a r b → Active O r → b ∈ v.stored
  start : n ∈ P ∨ n ∈ v.queue.map (·.1)
  missing : ∀ e, e ∈ v.missing ↔ e.2.1 ∈ P ∧ B.link e.2.1 e.2.2 e.1 ∧ ¬ Active O e.2.2 ∧ A.cls e.1 = none ∧ e.1 ∉ P

/-- The state inside the loop over the children of `u`. -/
structure CInv (O : Onto) (A B : Abs) (me n u : Uid) (P : List Uid) (v v' : Vars) : Prop where
  nodup : (u :: P ++ v'.queue.map (·.1)).Nodup
  copied : ∀ x ∈ v'.queue.map (·.1), Copied O B me n x
  flag : ∀ e ∈ v'.queue, (e.2 = true ↔ A.cls e.1 ≠ none)
  stored : ∀ x, x ∈ v'.stored ↔ x = me ∨ x ∈ u :: P ∨ x ∈ v'.queue.map (·.1)
  mono : ∀ x ∈ v.stored, x ∈ v'.stored
  monoQ : ∀ x ∈ v.queue, x ∈ v'.queue
  missing : v'.missing = v.missing

theorem enqueue_spec (S : Setup E O s0 src A B me n) {P : List Uid} {s : Sess} {u : Uid}
    (hC : Copied O B me n u) (hreg : ∀ x, x ∈ s.reg ↔ A.cls x ≠ none ∨ x ∈ u :: P) {r : Rel} {x : Uid} (hr : Active O r) (hl : B.link u r x)
    {v0 v : Vars} (I : CInv O A B me n u P v0 v) :
    ∃ v', enqueue O src s u r x v = .ok v' ∧ CInv O A B me n u P v0 v' ∧ x ∈ v'.stored ∧ (∀ y ∈ v.stored, y ∈ v'.stored) := by
  unfold enqueue
  split
  · rename_i h
    exact ⟨v, rfl, I, h, fun _ h => h⟩
  · rename_i hx
    obtain ⟨l, hg, hf⟩ := get_by_uids (O := O) S.viewB S.cohB u [x] (by simp) (some r)
    cases hf with
    | cons h1 h2 =>
      cases h2
      have hsel : B.selects O [x] (some r) none r x := by
        refine ⟨Or.inr (by simp), ?_, ?_⟩
        · rintro r' h; cases h; exact S.refl r
        · intro c h; cases h
      rcases h1 with ⟨rfl, _⟩ | ⟨_, h⟩
      · rw [hg]
        simp only
        have hx' := hx
        rw [I.stored, not_or, not_or] at hx'
        obtain ⟨hxme, hxP, hxq⟩ := hx'
        refine ⟨_, rfl, ?_, by simp, fun y hy => by simp [hy]⟩
        constructor
        · simp only [List.map_append, List.map_cons, List.map_nil]
          rw [← List.append_assoc, List.nodup_append]
          refine ⟨I.nodup, by simp, ?_⟩
          intro a ha b hb hab
          simp only [List.mem_singleton] at hb
          subst hb hab
          rcases List.mem_append.1 ha with h | h
          · exact hxP h
          · exact hxq h
        · intro y hy
          simp only [List.map_append, List.map_cons, List.map_nil, List.mem_append, List.mem_singleton] at hy
          rcases hy with hy | rfl
          · exact I.copied y hy
          · exact .step hC hl hr hxme
        · intro e he
          simp only [List.mem_append, List.mem_singleton] at he
          rcases he with he | rfl
          · exact I.flag e he
          · simp only [decide_eq_true_eq]
            rw [hreg]
            simp [hxP]
        · intro y
          simp only [List.mem_append, List.mem_singleton, List.map_append, List.map_cons, List.map_nil]
          rw [I.stored]
          constructor
          · rintro ((h | h | h) | h)
            · exact Or.inl h
            · exact Or.inr (Or.inl h)
            · exact Or.inr (Or.inr (Or.inl h))
            · exact Or.inr (Or.inr (Or.inr h))
          · rintro (h | h | h | h)
            · exact Or.inl (Or.inl h)
            · exact Or.inl (Or.inr (Or.inl h))
            · exact Or.inl (Or.inr (Or.inr h))
            · exact Or.inr h
        · intro y hy
          exact List.mem_append_left _ (I.mono y hy)
        · intro y hy
          exact List.mem_append_left _ (I.monoQ y hy)
        · exact I.missing
      · exact absurd ⟨r, hl, hsel⟩ h

theorem enqueueAll_spec (S : Setup E O s0 src A B me n) {P : List Uid} {s : Sess} {u : Uid}
    (hC : Copied O B me n u) (hreg : ∀ x, x ∈ s.reg ↔ A.cls x ≠ none ∨ x ∈ u :: P) {r : Rel} (hr : Active O r) (xs : List Uid)
    (hl : ∀ x ∈ xs, B.link u r x) {v0 v : Vars} (I : CInv O A B me n u P v0 v) :
    ∃ v', enqueueAll O src s u r xs v = .ok v' ∧ CInv O A B me n u P v0 v' ∧ (∀ x ∈ xs, x ∈ v'.stored) ∧ (∀ y ∈ v.stored, y ∈ v'.stored) := by
  induction xs generalizing v with
  | nil => exact ⟨v, rfl, I, by simp, fun _ h => h⟩
  | cons x xs ih =>
    obtain ⟨v1, e1, I1, s1, m1⟩ := enqueue_spec S hC hreg hr (hl x (by simp)) I
    obtain ⟨v2, e2, I2, s2, m2⟩ := ih (fun y hy => hl y (List.mem_cons_of_mem _ hy)) I1
    refine ⟨v2, ?_, I2, ?_, fun y hy => m2 y (m1 y hy)⟩
    · unfold enqueueAll
      rw [e1]
      exact e2
    · intro y hy
      rcases List.mem_cons.1 hy with rfl | hy
      · exact m2 y s1
      · exact s2 y hy

theorem children_spec (S : Setup E O s0 src A B me n) {P : List Uid} {s : Sess} {u : Uid}
    (hC : Copied O B me n u) (hreg : ∀ x, x ∈ s.reg ↔ A.cls x ≠ none ∨ x ∈ u :: P)
    (hlink : ∀ q b, Active O q → ((⟨u, .rel q, .cuds b⟩ : Triple) ∈ s.g ↔ B.link u q b)) (rs : List Rel)
    {v0 v : Vars} (I : CInv O A B me n u P v0 v) :
    ∃ v', children E O src s u rs v = .ok v' ∧ CInv O A B me n u P v0 v' ∧
      (∀ r ∈ rs, Active O r → ∀ x, B.link u r x → x ∈ v'.stored) ∧ (∀ y ∈ v.stored, y ∈ v'.stored) := by
  induction rs generalizing v with
  | nil => exact ⟨v, rfl, I, by simp, fun _ h => h⟩
  | cons r rs ih =>
    unfold children
    split
    · rename_i hr
      obtain ⟨v2, e2, I2, s2, m2⟩ := ih I
      refine ⟨v2, e2, I2, ?_, m2⟩
      intro q hq hact
      rcases List.mem_cons.1 hq with rfl | hq
      · exact absurd hact hr
      · exact s2 q hq hact
    · rename_i hr
      have hr : Active O r := not_not.1 hr
      obtain ⟨v1, e1, I1, s1, m1⟩ := enqueueAll_spec (s := s) S hC hreg hr (tgtsOf E s.g u r)
        (fun x hx => (hlink r x hr).1 ((mem_tgtsOf S.order).1 hx)) I
      obtain ⟨v2, e2, I2, s2, m2⟩ := ih I1
      rw [e1]
      refine ⟨v2, e2, I2, ?_, fun y hy => m2 y (m1 y hy)⟩
      intro q hq hact
      rcases List.mem_cons.1 hq with rfl | hq
      · intro x hx
        exact m2 x (s1 x ((mem_tgtsOf S.order).2 ((hlink _ x hact).2 hx)))
      · exact s2 q hq hact

/-- One iteration. -/
theorem storeOne_spec (S : Setup E O s0 src A B me n) {P : List Uid} {s : Sess} (I : Inv O s0 A B (Copied O B me n) P s)
    {u : Uid} {old : Bool} {q : List (Uid × Bool)} {v : Vars} (hq : v.queue = (u, old) :: q) (L : LInv O A B me n P v) :
    ∃ v' s', storeOne E O src s u old { v with queue := q } = ⟨.ok v', s'⟩ ∧
      Inv O s0 A B (Copied O B me n) (u :: P) s' ∧ LInv O A B me n (u :: P) v' ∧ u ∉ P := by
  have hnd := L.nodup
  rw [hq, List.map_cons] at hnd
  have huP : u ∉ P := by
    intro h
    rw [List.nodup_append] at hnd
    exact hnd.2.2 u h u (by simp) rfl
  have hC : Copied O B me n u := L.copied u (by rw [hq]; simp)
  obtain ⟨s1, g2, m2, hcf, hfix, I2, hact, hm2⟩ := inv_step S I huP hC (v.missing.filter fun e => e.1 ≠ u)
  have hold : old = decide (u ∈ s.reg) := by
    have := L.flag (u, old) (by rw [hq]; simp)
    rw [Bool.eq_iff_iff, this, decide_eq_true_iff, I.reg]
    simp [huP]
  have hclone : (if old = true then some (cloneGraph s.g u) else none) = if u ∈ s.reg then some (cloneGraph s.g u) else none := by
    rw [hold]; simp
  have C0 : CInv O A B me n u P { v with queue := q, missing := m2 } { v with queue := q, missing := m2 } := by
    constructor
    · have : (u :: P ++ q.map (·.1)).Perm (P ++ u :: q.map (·.1)) := List.perm_middle.symm
      exact this.nodup_iff.2 hnd
    · intro x hx
      exact L.copied x (by rw [hq]; exact List.mem_cons_of_mem _ hx)
    · intro e he
      exact L.flag e (by rw [hq]; exact List.mem_cons_of_mem _ he)
    · intro x
      simp only
      rw [L.stored, hq]
      simp only [List.map_cons, List.mem_cons]
      constructor
      · rintro (h | h | h | h)
        · exact Or.inl h
        · exact Or.inr (Or.inl (Or.inr h))
        · exact Or.inr (Or.inl (Or.inl h))
        · exact Or.inr (Or.inr h)
      · rintro (h | (h | h) | h)
        · exact Or.inl h
        · exact Or.inr (Or.inr (Or.inl h))
        · exact Or.inr (Or.inl h)
        · exact Or.inr (Or.inr (Or.inr h))
    · exact fun _ h => h
    · exact fun _ h => h
    · rfl
  obtain ⟨v', hch, CI, hst, _⟩ := children_spec (s := { s1 with g := g2 }) S hC I2.reg hact (keysOf E g2 u) C0
  refine ⟨v', { s1 with g := g2 }, ?_, I2, ?_, huP⟩
  · unfold storeOne
    simp only [hcf, hclone, hfix, hch]
  · constructor
    · exact CI.nodup
    · exact CI.copied
    · exact CI.flag
    · exact CI.stored
    · intro a r b ha hl hr
      rcases List.mem_cons.1 ha with rfl | ha
      · exact hst r ((mem_keysOf S.order).2 (neighborRels_of ((hact r b hr).2 hl))) hr b hl
      · exact CI.mono b (L.closed a r b ha hl hr)
    · rcases L.start with h | h
      · exact Or.inl (List.mem_cons_of_mem _ h)
      · rw [hq] at h
        rcases List.mem_cons.1 h with h | h
        · exact Or.inl (by rw [h]; simp)
        · right
          obtain ⟨e, he, h⟩ := List.mem_map.1 h
          exact List.mem_map.2 ⟨e, CI.monoQ e he, h⟩
    · intro e
      rw [CI.missing]
      simp only
      rw [hm2, List.mem_filter, L.missing]
      obtain ⟨x, w, r⟩ := e
      simp only [decide_eq_true_eq, List.mem_cons, not_or, Prod.mk.injEq]
      constructor
      · rintro (⟨⟨h1, h2, h3, h4, h5⟩, h6⟩ | ⟨x', r', h1, h2, h3, h4, rfl, rfl, rfl⟩)
        · exact ⟨Or.inr h1, h2, h3, h4, h6, h5⟩
        · exact ⟨Or.inl rfl, h1, h2, h3, h4⟩
      · rintro ⟨rfl | h1, h2, h3, h4, h5, h6⟩
        · exact Or.inr ⟨x, r, h2, h3, h4, ⟨h5, h6⟩, rfl, rfl, rfl⟩
        · exact Or.inl ⟨⟨h1, h2, h3, h4, h6⟩, h5⟩

/-- The loop ends within as many iterations as the source session has objects, plus one. -/
theorem storeLoop_spec (S : Setup E O s0 src A B me n) (fuel : Nat) (P : List Uid) (s : Sess) (v : Vars)
    (I : Inv O s0 A B (Copied O B me n) P s) (L : LInv O A B me n P v) (hf : src.reg.length + 1 ≤ fuel + P.length) (hP : P.length ≤ src.reg.length) :
    ∃ P' s' m, storeLoop E O src fuel s v = some ⟨.ok m, s'⟩ ∧ Inv O s0 A B (Copied O B me n) P' s' ∧ (∀ u, u ∈ P' ↔ Copied O B me n u) ∧
      (∀ e, e ∈ m ↔ e.2.1 ∈ P' ∧ B.link e.2.1 e.2.2 e.1 ∧ ¬ Active O e.2.2 ∧ A.cls e.1 = none ∧ e.1 ∉ P') := by
  induction fuel generalizing P s v with
  | zero => omega
  | succ fuel ih =>
    unfold storeLoop
    split
    · rename_i hq
      refine ⟨P, s, v.missing, rfl, I, fun u => ⟨I.sub u, ?_⟩, L.missing⟩
      intro hu
      induction hu with
      | start => 
        rcases L.start with h | h
        · exact h
        · rw [hq] at h; simp at h
      | step _ hl hr hne iha =>
        have := L.closed _ _ _ iha hl hr
        rw [L.stored, hq] at this
        rcases this with h | h | h
        · exact absurd h hne
        · exact h
        · simp at h
    · rename_i u old q hq
      obtain ⟨v', s', e, I', L', hu⟩ := storeOne_spec S I hq L
      rw [e]
      simp only
      refine ih (u :: P) s' v' I' L' ?_ ?_
      · simp only [List.length_cons]; omega
      · have hnd : (u :: P).Nodup := (List.nodup_append.1 L'.nodup).1
        have hsub : ∀ x ∈ u :: P, x ∈ src.reg := fun x hx => (S.viewB.reg x).2 (S.copied_cls (I'.sub x hx))
        exact Osp.Onto.nodup_length_le _ _ hnd hsub

theorem mem_dropMissing (m : Missing) (g : Graph) :
    (∀ t, t ∈ dropMissing m g ↔ t ∈ g ∧ ∀ e ∈ m, t ≠ ⟨e.2.1, .rel e.2.2, .cuds e.1⟩) ∧ (g.Nodup → (dropMissing m g).Nodup) := by
  unfold dropMissing
  induction m generalizing g with
  | nil => simp
  | cons e m ih =>
    refine ⟨fun t => ?_, fun h => (ih _).2 (nodup_removeDirect h)⟩
    rw [List.foldl_cons, (ih _).1]
    change t ∈ removeDirect g e.2.1 e.2.2 e.1 ∧ _ ↔ _
    rw [mem_removeDirect]
    simp only [List.mem_cons, forall_eq_or_imp, ne_eq, and_assoc]

/-- The view after the copy. -/
noncomputable def imported (A B : Abs) (C : Uid → Prop) (s' : Sess) : Abs :=
  open Classical in
  { cls := fun u => if C u then B.cls u else A.cls u
    attr := fun u => if C u then B.attr u else A.attr u
    link := fun a q b => (⟨a, .rel q, .cuds b⟩ : Triple) ∈ s'.g }

/-- `_recursive_store` succeeds and its effect is `Imported`. -/
theorem recursiveStore_spec (S : Setup E O s0 src A B me n) (fuel : Nat) (hf : src.reg.length + 1 ≤ fuel) :
    ∃ s' A', recursiveStore E O fuel src s0 me n (n ∈ s0.reg) = some ⟨.ok n, s'⟩ ∧ Views s' A' ∧ Imported O A B (Copied O B me n) A' ∧
      ParentsKept O A B (Copied O B me n) A' ∧ ParentsAtMost O A B (Copied O B me n) A' ∧ s'.root = s0.root ∧ ∀ u c, A'.cls u = none → (⟨u, .type, .cls c⟩ : Triple) ∈ s'.g → (⟨u, .type, .cls c⟩ : Triple) ∈ s0.g ∨ B.cls u = some c := by
  have L0 : LInv O A B me n [] ⟨[(n, decide (n ∈ s0.reg))], [n, me], []⟩ := by
    constructor
    · simp
    · intro u hu; simp at hu; subst hu; exact .start
    · intro e he
      simp only [List.mem_singleton] at he
      subst he
      simp [S.viewA.reg]
    · intro u; simp [or_comm]
    · simp
    · right; simp
    · simp
  obtain ⟨P, s1, m, hl, I, hP, hm⟩ := storeLoop_spec S fuel [] s0 _ (inv_init S) L0 (by simpa using hf) (by simp)
  obtain ⟨d1, d2⟩ := mem_dropMissing m s1.g
  have hme : A.cls me ≠ none := S.self_mem
  have hlk : ∀ a q b, (imported A B (Copied O B me n) { s1 with g := dropMissing m s1.g }).link a q b ↔
      (⟨a, .rel q, .cuds b⟩ : Triple) ∈ s1.g ∧ (b, a, q) ∉ m := by
    intro a q b
    simp only [imported]
    rw [d1]
    refine and_congr Iff.rfl ⟨fun h hm => h _ hm rfl, ?_⟩
    rintro h ⟨x, w, r⟩ he e
    simp only [Triple.mk.injEq, Pred.rel.injEq, Obj.cuds.injEq] at e
    obtain ⟨rfl, rfl, rfl⟩ := e
    exact h he
  refine ⟨{ s1 with g := dropMissing m s1.g }, imported A B (Copied O B me n) { s1 with g := dropMissing m s1.g }, ?_, ?_, ?_, ?_, ?_, I.root, ?_⟩
  · unfold recursiveStore
    rw [hl]
  · have hnl : ∀ t ∈ s1.g, (∀ r x, t.p ≠ .rel r ∨ t.o ≠ .cuds x) → t ∈ dropMissing m s1.g := by
      intro t ht h
      rw [d1]
      refine ⟨ht, fun e _ he => ?_⟩
      subst he
      rcases h e.2.2 e.1 with h | h <;> exact h rfl
    constructor
    · exact d2 I.nodup
    · intro u
      simp only [imported]
      rw [I.reg, hP]
      split
      · rename_i h; simp [h, S.copied_cls h]
      · rename_i h; simp [h]
    · intro u c c' hc
      have : (⟨u, .type, .cls c'⟩ : Triple) ∈ dropMissing m s1.g ↔ (⟨u, .type, .cls c'⟩ : Triple) ∈ s1.g :=
        ⟨fun h => ((d1 _).1 h).1, fun h => hnl _ h (fun r x => Or.inl (by simp))⟩
      simp only [imported] at hc
      simp only
      rw [this]
      split at hc
      · rename_i h
        rw [I.typeP u c' ((hP u).2 h), hc]
        simp [eq_comm]
      · rename_i h
        have hu : u ∉ P := fun hu => h ((hP u).1 hu)
        constructor
        · intro ht
          rcases I.typeN u c' hu ht with h' | h'
          · exact (S.viewA.type u c c' hc).1 h'
          · exact (S.same_class u c c' h hc h').symm
        · rintro rfl
          exact I.typeO u c' hu hc
    · intro u a w
      have : (⟨u, .attr a, .val w⟩ : Triple) ∈ dropMissing m s1.g ↔ (⟨u, .attr a, .val w⟩ : Triple) ∈ s1.g :=
        ⟨fun h => ((d1 _).1 h).1, fun h => hnl _ h (fun r x => Or.inl (by simp))⟩
      simp only [imported]
      rw [this]
      split
      · rename_i h; exact I.attrP u a w ((hP u).2 h)
      · rename_i h; exact I.attrO u a w (fun hu => h ((hP u).1 hu))
    · exact fun u r x => Iff.rfl
    · exact fun t ht => I.kinds t ((d1 t).1 ht).1
    · intro u a
      simp only [imported]
      split
      · exact fun _ => S.copied_cls ‹_›
      · exact S.viewA.owned u a
  · have hPn : ∀ u, u ∉ P ↔ ¬ Copied O B me n u := fun u => not_congr (hP u)
    constructor
    · intro u hu; simp [imported, hu]
    · intro u hu; simp [imported, hu]
    · intro u hu; simp [imported, hu]
    · intro u hu; simp [imported, hu]
    · intro a q b ha hb
      rw [hlk, I.link00 a q b ((hPn a).2 ha) ((hPn b).2 hb), hm]
      simp [(hPn a).2 ha]
    · intro a q b ha hb hB
      rw [hlk, hm]
      exact ⟨I.link1B a q b ((hP a).2 ha) hB, fun h => h.2.2.2.2 ((hP b).2 hb)⟩
    · intro a q b ha hb h
      rw [hlk] at h
      rcases I.link1U a q b ((hP a).2 ha) h.1 with h | ⟨h1, h2, h3⟩
      · exact Or.inl h
      · exact Or.inr ⟨h1, h2, h3 ((hP b).2 hb)⟩
    · intro a q b ha hb hB hA
      rw [hlk, hm]
      exact ⟨I.link1B a q b ((hP a).2 ha) hB, fun h => hA h.2.2.2.1⟩
    · intro a q b ha hb h
      rw [hlk, hm] at h
      rcases I.link1U a q b ((hP a).2 ha) h.1 with hB | ⟨h1, h2, _⟩
      · left
        refine ⟨hB, fun hA => ?_⟩
        by_cases hact : Active O q
        · by_cases hbm : b = me
          · subst hbm; exact hme hA
          · exact hb (.step ha hB hact hbm)
        · exact h.2 ⟨(hP a).2 ha, hB, hact, hA, (hPn b).2 hb⟩
      · exact Or.inr ⟨h1, h2⟩
    · intro a q b ha hb
      rw [hlk, I.link01 a q b ((hPn a).2 ha) ((hP b).2 hb), hm]
      simp only [(hPn a).2 ha, false_and, not_false_eq_true, and_true]
      exact Iff.rfl
  · intro a q b ha hb hA hna hact hs
    rw [hlk, hm]
    exact ⟨I.link1P a q b ((hP a).2 ha) hb hA hna hact hs, fun h => S.cohA.dst _ _ _ hA h.2.2.2.1⟩
  · intro a q most ha hpoor
    obtain ⟨kept, hk1, hk2⟩ := I.link1L a q most ((hP a).2 ha) hpoor
    exact ⟨kept, hk1, fun b hb => hk2 b ((hlk a q b).1 hb).1⟩
  · intro u c hu h
    simp only [imported] at hu
    split at hu
    · rename_i hc; exact absurd hu (S.copied_cls hc)
    · rename_i hc
      exact I.typeN u c (fun h => hc ((hP u).1 h)) ((d1 _).1 h).1

end Osp.Store
