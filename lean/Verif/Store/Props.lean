import Verif.Store.Loop
import Verif.Cuds.Root
/-!
# Copying objects between sessions (C24, C25, C51)
-/
namespace Osp.Store
open Osp.Cuds

variable {E : Order} {O : Onto} {s0 src : Sess} {A B : Abs} {me n : Uid}

/-! ### C51: get_neighbor_diff -/

/-- The links of an argument of `get_neighbor_diff`: those of the object, none for `None`. -/
def HasLink : Option View → Rel → Uid → Prop
  | none, _, _ => False
  | some v, r, x => (⟨v.u, .rel r, .cuds x⟩ : Triple) ∈ v.g

theorem vlink_iff {v : Option View} {r : Rel} {x : Uid} : VLink v r x ↔ HasLink v r x := by
  cases v <;> simp [VLink, HasLink]

/-- **C51.** `get_neighbor_diff(a, b, mode)` returns the pairs (uid, relationship) that are links of `a` and not of `b`, restricted to the
relationships of the mode, each once, for all objects, also `None`, in whatever order graphs and sets are enumerated; other modes are
refused with ValueError. -/
theorem neighbor_diff_exact (hE : E.Ok) (a b : Option View) (ha : ∀ v, a = some v → v.g.Nodup) (mode : String) :
    (mode ∈ ["all", "active", "non-active"] → ∃ l, neighborDiff E O a b mode = .ok l ∧ l.Nodup ∧ ∀ x r, (x, r) ∈ l ↔
      HasLink a r x ∧ ¬ HasLink b r x ∧ (mode = "active" → Active O r) ∧ (mode = "non-active" → ¬ Active O r)) ∧
    (mode ∉ ["all", "active", "non-active"] → neighborDiff E O a b mode = .error .valueError) := by
  constructor
  · intro hm
    obtain ⟨l, hl, h⟩ := neighborDiff_mem (O := O) hE a b mode hm
    refine ⟨l, hl, neighborDiff_nodup hE a b ha mode l hl, fun x r => ?_⟩
    rw [h]
    simp only [vlink_iff]
  · intro hm
    unfold neighborDiff
    rw [if_pos hm]

/-! ### C24, C25: add and update with objects of another session -/

theorem views_connect_one {s : Sess} {A : Abs} (h : Views s A) (me x : Uid) (r : Rel) :
    Views { s with g := addInverse O (addDirect s.g me x r) x me r } (A.connect O.inv me r [x]) := by
  constructor
  · exact nodup_addDirect (nodup_addDirect h.nodup)
  · exact h.reg
  · intro u c c' hc
    simp only [addInverse, mem_addDirect]
    simp [h.type u c c' hc]
  · intro u a v; simp only [addInverse, mem_addDirect, Abs.connect]; simp [h.attr]
  · intro u q y
    simp only [addInverse, mem_addDirect, Abs.connect, h.link, Triple.mk.injEq, Pred.rel.injEq, Obj.cuds.injEq, List.mem_singleton]
    constructor
    · rintro (⟨rfl, rfl, rfl⟩ | ⟨rfl, rfl, rfl⟩ | h)
      · exact Or.inr (Or.inr ⟨rfl, rfl, rfl⟩)
      · exact Or.inr (Or.inl ⟨rfl, rfl, rfl⟩)
      · exact Or.inl h
    · rintro (h | ⟨rfl, rfl, rfl⟩ | ⟨rfl, rfl, rfl⟩)
      · exact Or.inr (Or.inr h)
      · exact Or.inr (Or.inl ⟨rfl, rfl, rfl⟩)
      · exact Or.inl ⟨rfl, rfl, rfl⟩
  · intro t ht
    simp only [addInverse, mem_addDirect] at ht
    rcases ht with rfl | rfl | ht
    · exact Or.inr (Or.inr ⟨_, _, rfl, rfl⟩)
    · exact Or.inr (Or.inr ⟨_, _, rfl, rfl⟩)
    · exact h.kinds t ht
  · exact h.owned

theorem views_refines {s : Sess} {A : Abs} (h : Refines s A) : Views s A where
  nodup := h.nodup
  reg := h.reg
  type u c c' hc := by rw [h.type, hc]; simp [eq_comm]
  attr := h.attr
  link := h.link
  kinds := h.kinds
  owned := h.owned

/-- **C24.** `self.add(n, rel=r)` with an object `n` of another session terminates, returns the copy of `n`, and afterwards the session is as
`Imported` says: exactly the objects reachable from `n` over active relationships are copied, with class, attributes and mutual links;
everything else is untouched; links between copied and other objects are those of the source, where the other object exists in the target
session, and old parents' ones; finally `self` and `n` are linked by `r` and its inverse. The only types that may be left over without an object are those of the source
session. -/
theorem add_from_other_session (S : Setup E O s0 src A B me n) (rel d : Option Rel) (r : Rel) (hr : rel.or d = some r)
    (hnew : ¬ A.link me r n) (fuel : Nat) (hf : src.reg.length + 1 ≤ fuel) :
    ∃ s' A', addFrom E O fuel s0 me [(src, n)] rel d = some ⟨.ok [n], s'⟩ ∧ Imported O A B (Copied O B me n) A' ∧ ParentsKept O A B (Copied O B me n) A' ∧
      ParentsAtMost O A B (Copied O B me n) A' ∧ Views s' (A'.connect O.inv me r [n]) ∧ s'.root = s0.root ∧
      ∀ u c, A'.cls u = none → (⟨u, .type, .cls c⟩ : Triple) ∈ s'.g → (⟨u, .type, .cls c⟩ : Triple) ∈ s0.g ∨ B.cls u = some c := by
  obtain ⟨s1, A', h1, hv, hi, hpk, hpm, hroot, hst⟩ := recursiveStore_spec S fuel hf
  refine ⟨{ s1 with g := addInverse O (addDirect s1.g me n r) n me r }, A', ?_, hi, hpk, hpm, views_connect_one hv me n r, hroot, ?_⟩
  · unfold addFrom
    rw [hr]
    have hno : ¬ (r ∈ neighborRels s0.g me ∧ n ∈ targets s0.g me r) := by
      rintro ⟨_, h⟩
      rw [mem_targets, S.viewA.link] at h
      exact hnew h
    have hone : addOne E O fuel src s0 me n r = some ⟨.ok n, { s1 with g := addInverse O (addDirect s1.g me n r) n me r }⟩ := by
      unfold addOne
      rw [if_neg hno, h1]
    simp only [addLoop, hone]
  · intro u c hu h
    apply hst u c hu
    simp only [addInverse, mem_addDirect] at h
    rcases h with h | h | h
    · cases h
    · cases h
    · exact h

/-- Adding an object that is already linked by that relationship is refused and changes nothing; so is adding without a relationship. -/
theorem add_from_refused (s : Sess) (hA : Views s A) (me n : Uid) (args : List (Sess × Uid)) (fuel : Nat) :
    (∀ rel d r, rel.or d = some r → A.link me r n → addFrom E O fuel s me ((src, n) :: args) rel d = some ⟨.error .valueError, s⟩) ∧
    addFrom E O fuel s me ((src, n) :: args) none none = some ⟨.error .typeError, s⟩ := by
  constructor
  · intro rel d r hr hl
    unfold addFrom
    rw [hr]
    have hm := (hA.link me r n).2 hl
    have hyes : r ∈ neighborRels s.g me ∧ n ∈ targets s.g me r := ⟨neighborRels_of hm, mem_targets.2 hm⟩
    simp only [addLoop, addOne, if_pos hyes]
  · rfl

/-- **C24 for update.** `self.update(n)` with a newer version of `n` from another session does the same without adding links to `self`, and is
refused with ValueError, without any change, if `n` is not content of `self`. -/
theorem update_from_other_session (S : Setup E O s0 src A B me n) (hA : Refines s0 A) (fuel : Nat) (hf : src.reg.length + 1 ≤ fuel) :
    ((∃ r, A.link me r n ∧ Active O r) → ∃ s' A', update E O fuel src s0 me n = some ⟨.ok n, s'⟩ ∧ Imported O A B (Copied O B me n) A' ∧
      ParentsKept O A B (Copied O B me n) A' ∧ ParentsAtMost O A B (Copied O B me n) A' ∧ Views s' A' ∧ s'.root = s0.root) ∧
    ((¬ ∃ r, A.link me r n ∧ Active O r) → update E O fuel src s0 me n = some ⟨.error .valueError, s0⟩) := by
  obtain ⟨l, hg, hfa⟩ := get_by_uids (O := O) hA S.cohA me [n] (by simp) (some O.active)
  have hsel : ∀ r, A.selects O [n] (some O.active) none r n ↔ Active O r := by
    intro r
    constructor
    · intro h; exact h.2.1 _ rfl
    · intro h
      refine ⟨Or.inr (by simp), ?_, ?_⟩
      · rintro r' h'; cases h'; exact h
      · intro c h'; cases h'
  cases hfa with
  | cons h1 h2 =>
    cases h2
    simp only [hsel] at h1
    constructor
    · intro hex
      rcases h1 with ⟨rfl, _⟩ | ⟨_, h⟩
      · obtain ⟨s1, A', h1, hv, hi, hpk, hpm, hroot, _⟩ := recursiveStore_spec S fuel hf
        obtain ⟨r, hl, _⟩ := hex
        have hn : n ∈ s0.reg := (S.viewA.reg n).2 (S.cohA.dst _ _ _ hl)
        refine ⟨s1, A', ?_, hi, hpk, hpm, hv, hroot⟩
        unfold update
        rw [hg]
        simp only
        simpa [hn] using h1
      · exact absurd hex h
    · intro hno
      rcases h1 with ⟨_, h⟩ | ⟨rfl, _⟩
      · exact absurd h hno
      · unfold update
        rw [hg]

/-- **C25 (part).** An object `a` that is replaced when `n` is added keeps the link to its parent `b` (an object of the target session, not part of the
copy, that contains it), also if the new version does not have this parent, provided it is the only parent by that relationship, or some
dropped parent is `Rich`, that is, takes part in at least as many kinds of relationships as `a` has parents; and
the parent keeps its link to `a`. Missing: objects with more parents than each of them has kinds of relationships, for which the claim fails
(`old_parent_lost`, `old_parents_lost_poor`). -/
theorem old_parents_kept_partial (S : Setup E O s0 src A B me n) (rel d : Option Rel) (r : Rel) (hr : rel.or d = some r)
    (hnew : ¬ A.link me r n) (fuel : Nat) (hf : src.reg.length + 1 ≤ fuel) (a b : Uid) (q : Rel) (ha : Copied O B me n a) (hb : ¬ Copied O B me n b)
    (hl : A.link a q b) (hq : ¬ Active O q) (hq' : Active O (O.inv q)) (hone : (∀ x y, A.link a q x → A.link a q y → x = y) ∨ Rich O A B (Copied O B me n) a q)
    (l : List Uid) (s' : Sess) (hrun : addFrom E O fuel s0 me [(src, n)] rel d = some ⟨.ok l, s'⟩) :
    (⟨a, .rel q, .cuds b⟩ : Triple) ∈ s'.g ∧ (⟨b, .rel (O.inv q), .cuds a⟩ : Triple) ∈ s'.g := by
  obtain ⟨s1, A', h1, hi, hpk, _, hv, _⟩ := add_from_other_session S rel d r hr hnew fuel hf
  rw [h1] at hrun
  cases hrun
  rw [hv.link, hv.link]
  refine ⟨Or.inl (hpk a q b ha hb hl hq hq' hone), Or.inl ((hi.link_in b _ a hb ha).2 (Or.inl ⟨S.cohA.sym _ _ _ hl, ?_⟩))⟩
  intro h
  rw [S.inv_inv] at h
  exact absurd h hq

/-- **C25 fails, in general.** Of the old neighbours (parents) of a replaced object `a` by `q` that the new version does not have, no more stay connected than
each of them takes part in kinds of relationships: an object with more old parents (not counting `self`, to which `add` connects it anew) than these
have kinds of relationships always loses some. -/
theorem old_parents_lost_poor (S : Setup E O s0 src A B me n) (rel d : Option Rel) (r : Rel) (hr : rel.or d = some r)
    (hnew : ¬ A.link me r n) (fuel : Nat) (hf : src.reg.length + 1 ≤ fuel) (a : Uid) (q : Rel) (ha : Copied O B me n a)
    (most : Nat) (hpoor : Poor O A B (Copied O B me n) a q most)
    (l : List Uid) (s' : Sess) (hrun : addFrom E O fuel s0 me [(src, n)] rel d = some ⟨.ok l, s'⟩)
    (nbrs : List Uid) (hn : nbrs.Nodup) (hlen : most < nbrs.length) (hnb : ∀ y ∈ nbrs, y ≠ me ∧ A.link a q y ∧ ¬ B.link a q y) :
    ∃ y ∈ nbrs, (⟨a, .rel q, .cuds y⟩ : Triple) ∉ s'.g := by
  obtain ⟨s1, A', h1, _, _, hpm, hv, _⟩ := add_from_other_session S rel d r hr hnew fuel hf
  rw [h1] at hrun
  cases hrun
  obtain ⟨kept, hk1, hk2⟩ := hpm a q most ha hpoor
  by_contra hall
  have hsub : nbrs ⊆ kept := by
    intro y hy
    have hin : (⟨a, .rel q, .cuds y⟩ : Triple) ∈ s'.g := by
      by_contra hno
      exact hall ⟨y, hy, hno⟩
    rw [hv.link] at hin
    rcases hin with h | ⟨_, _, h⟩ | ⟨h, _⟩
    · exact (hk2 y h).resolve_left (hnb y hy).2.2
    · simp only [List.mem_singleton] at h
      rw [h] at hy
      exact absurd .start (hpoor n (hnb n hy).2.1 (hnb n hy).2.2).1
    · exact absurd h (hnb y hy).1
  exact absurd (List.subperm_of_subset hn hsub).length_le (by omega)

/-- **Links stay symmetric.** If no copied object contains `self` (by an active link that `self` does not have the inverse of), and every old link
of a replaced object that the new version does not have is either to former content or to its only parent by that relationship, then
the links of the resulting session are again present in both directions and only between existing objects. Both conditions are necessary
(`active_link_to_self_one_way`, `old_parent_lost`). -/
theorem import_coherent (S : Setup E O s0 src A B me n) {A' : Abs} (h : Imported O A B (Copied O B me n) A') (hpk : ParentsKept O A B (Copied O B me n) A')
    (hself : ∀ a q, Copied O B me n a → B.link a q me → Active O q → Copied O B me n me ∨ A.link me (O.inv q) a)
    (hpar : ∀ a q b, Copied O B me n a → A.link a q b → ¬ B.link a q b → ¬ Active O q → Active O (O.inv q) ∧
      (¬ Copied O B me n b → Single A a q ∨ Rich O A B (Copied O B me n) a q)) :
    A'.Coherent O.inv := by
  have hsrcB : ∀ a, Copied O B me n a → A'.cls a ≠ none := fun a ha => by rw [h.cls_copied a ha]; exact S.copied_cls ha
  have hsrcA : ∀ a, ¬ Copied O B me n a → A.cls a ≠ none → A'.cls a ≠ none := fun a ha hA => by rwa [h.cls_other a ha]
  constructor
  · intro a q b hl
    by_cases ha : Copied O B me n a <;> by_cases hb : Copied O B me n b
    · by_cases hB : B.link a q b
      · exact h.link_copied _ _ _ hb ha (S.cohB.sym _ _ _ hB)
      · rcases h.link_copied_only a q b ha hb hl with h1 | ⟨h1, h2, h3⟩
        · exact absurd h1 hB
        · exact absurd (hpar a q b ha h1 hB h2).1 h3
    · rw [h.link_in b (O.inv q) a hb ha, S.inv_inv]
      rcases h.link_out_only a q b ha hb hl with ⟨h1, h2⟩ | ⟨h1, h2⟩
      · by_cases hact : Active O q
        · by_cases hbm : b = me
          · subst hbm
            rcases hself a q ha h1 hact with h3 | h3
            · exact absurd h3 hb
            · exact Or.inl ⟨h3, fun _ => h1⟩
          · exact absurd (.step ha h1 hact hbm) hb
        · exact Or.inr ⟨h1, hact, h2⟩
      · exact Or.inl ⟨S.cohA.sym _ _ _ h1, fun hact => absurd hact h2⟩
    · rcases (h.link_in a q b ha hb).1 hl with ⟨h1, h2⟩ | ⟨h1, h2, h3⟩
      · by_cases hB : B.link b (O.inv q) a
        · exact h.link_out _ _ _ hb ha hB (S.cohA.src _ _ _ h1)
        · have hna : ¬ Active O (O.inv q) := fun hact => hB (h2 hact)
          have hA := S.cohA.sym _ _ _ h1
          obtain ⟨h3, h4⟩ := hpar b (O.inv q) a hb hA hB hna
          exact hpk _ _ _ hb ha hA hna h3 (h4 ha)
      · exact h.link_out _ _ _ hb ha h1 h3
    · exact (h.link_other _ _ _ hb ha).2 (S.cohA.sym _ _ _ ((h.link_other _ _ _ ha hb).1 hl))
  · intro a q b hl
    by_cases ha : Copied O B me n a
    · exact hsrcB a ha
    · apply hsrcA a ha
      by_cases hb : Copied O B me n b
      · rcases (h.link_in a q b ha hb).1 hl with ⟨h1, h2⟩ | ⟨h1, h2, h3⟩
        · exact S.cohA.src _ _ _ h1
        · exact h3
      · exact S.cohA.src _ _ _ ((h.link_other _ _ _ ha hb).1 hl)
  · intro a q b hl
    by_cases hb : Copied O B me n b
    · exact hsrcB b hb
    · apply hsrcA b hb
      by_cases ha : Copied O B me n a
      · rcases h.link_out_only a q b ha hb hl with ⟨h1, h2⟩ | ⟨h1, h2⟩
        · exact h2
        · exact S.cohA.dst _ _ _ h1
      · exact S.cohA.dst _ _ _ ((h.link_other _ _ _ ha hb).1 hl)

/-! ### Sessions reached by any history -/

theorem run_reachable (O : Onto) (ops : List Op) (s : Sess) (hs : Reachable O s) (hok : AllOk O s ops) : Reachable O (run O s ops).2 := by
  induction ops generalizing s with
  | nil => exact hs
  | cons op ops ih => exact ih _ (.step hs op hok.1) hok.2

theorem remove_reg {s : Sess} (self : Uid) (uids : List Uid) (rel : Option Rel) (oc : Option Cls) : (remove O s self uids rel oc).st.reg = s.reg := by
  unfold remove
  repeat' (first | split | rfl)

/-- In every reachable session the nil uid is not registered and the root is set as soon as something is registered. -/
theorem reachable_basic {s : Sess} (hs : Reachable O s) : 0 ∉ s.reg ∧ (s.reg ≠ [] → s.root ≠ none) := by
  induction hs with
  | init => exact ⟨by simp, by simp⟩
  | step _ op _ ih =>
    rename_i s _ _
    obtain ⟨h0, hr⟩ := ih
    cases op with
    | create u c vals =>
      show 0 ∉ (create s u c vals).st.reg ∧ ((create s u c vals).st.reg ≠ [] → (create s u c vals).st.root ≠ none)
      unfold create
      split
      · exact ⟨h0, hr⟩
      · rename_i hu
        refine ⟨?_, fun _ => ?_⟩
        · simp only
          split
          · exact h0
          · simp only [List.mem_append, List.mem_singleton, not_or]
            exact ⟨h0, fun h => hu h.symm⟩
        · simp only
          cases s.root <;> simp
    | add self args rel d =>
      show 0 ∉ (add O s self args rel d).st.reg ∧ _
      rw [show (step O s (.add self args rel d)).st.root = s.root from add_root _ _ _ _]
      have : (add O s self args rel d).st.reg = s.reg := by
        unfold add
        repeat' (first | split | rfl)
      rw [show (step O s (.add self args rel d)).st.reg = s.reg from this, this]
      exact ⟨h0, hr⟩
    | remove self uids rel oc =>
      rw [show (step O s (.remove self uids rel oc)).st.root = s.root from remove_root _ _ _ _,
        show (step O s (.remove self uids rel oc)).st.reg = s.reg from remove_reg _ _ _ _]
      exact ⟨h0, hr⟩
    | setAttr u a v =>
      have : (setAttr O s u a v).st.reg = s.reg := by
        unfold setAttr
        repeat' (first | split | rfl)
      rw [show (step O s (.setAttr u a v)).st.root = s.root from setAttr_root _ _ _,
        show (step O s (.setAttr u a v)).st.reg = s.reg from this]
      exact ⟨h0, hr⟩
    | delete u =>
      have hsub : ∀ x ∈ (delete O s u).st.reg, x ∈ s.reg := by
        unfold delete
        split
        · exact fun _ h => h
        · split
          · have := remove_reg (O := O) (s := s) u [] (some O.relationship) none
            split
            · rename_i h; rw [h] at this; simp only at this; rw [← this]; exact fun _ h => h
            · rename_i h; rw [h] at this; simp only at this
              intro x hx
              rw [← this]
              exact (List.mem_filter.1 hx).1
          · intro x hx
            exact (List.mem_filter.1 hx).1
      refine ⟨fun h => h0 (hsub 0 h), fun hne => ?_⟩
      rw [show (step O s (.delete u)).st.root = s.root from delete_root _]
      apply hr
      intro he
      apply hne
      have : ∀ x, x ∉ (delete O s u).st.reg := fun x hx => by have := hsub x hx; rw [he] at this; simp at this
      exact List.eq_nil_iff_forall_not_mem.2 this

/-- The situation is met by any two sessions reached by any histories of calls, if objects with the same uid have the same class and objects that
are replaced are not linked to themselves. -/
theorem setup_of_reachable (hE : E.Ok) (hW : O.WF) (hrefl : ∀ r, O.subRel r r = true) (hs0 : Reachable O s0) (hsrc : Reachable O src)
    (hme : me ∈ s0.reg) (hn : n ∈ src.reg)
    (hcls : ∀ x c c', (⟨x, .type, .cls c⟩ : Triple) ∈ s0.g → (⟨x, .type, .cls c'⟩ : Triple) ∈ src.g → c = c')
    (hloop : ∀ u r, (⟨u, .rel r, .cuds u⟩ : Triple) ∉ s0.g) :
    ∃ A B, Refines s0 A ∧ Refines src B ∧ Setup E O s0 src A B me n := by
  obtain ⟨A, hA, hAc⟩ := reachable_view hW hs0
  obtain ⟨B, hB, hBc⟩ := reachable_view hW hsrc
  refine ⟨A, B, hA, hB, ?_⟩
  constructor
  · exact hE
  · exact hW.inv_inv
  · exact hrefl
  · exact views_refines hA
  · exact hAc
  · exact hB
  · exact hBc
  · exact (hA.reg me).1 hme
  · exact (hB.reg n).1 hn
  · exact (reachable_basic hs0).2 (by rintro h; rw [h] at hme; simp at hme)
  · by_contra h0
    exact (reachable_basic hsrc).1 ((hB.reg 0).2 h0)
  · intro x c c' _ h1 h2
    exact hcls x c c' ((hA.type _ _).2 h1) ((hB.type _ _).2 h2)
  · intro x c h1 h2
    rw [hA.type] at h2
    rw [h1] at h2
    cases h2
  · intro u q _ h
    exact hloop u q ((hA.link _ _ _).2 h)

/-! ### Non-vacuity -/

/-- The order of the lists. -/
def idOrder : Order := ⟨id, id⟩

theorem idOrder_ok : idOrder.Ok := ⟨fun _ => .refl _, fun _ => .refl _⟩

/-- `hasPart` (1) is active, `isPartOf` (2) its inverse. -/
def exTarget : List Op :=
  [.create 1 5 [(7, 10)], .create 2 5 [(7, 20)], .create 3 5 [(7, 30)], .create 4 5 [(7, 40)], .add 1 [2] (some 1) none, .add 2 [3] (some 1) none]

/-- A newer version of object 2, without 3 but with 6; it is also part of 8, which the target does not know. -/
def exSource : List Op :=
  [.create 8 5 [(7, 80)], .create 2 5 [(7, 21)], .create 6 5 [(7, 60)], .add 8 [2] (some 1) none, .add 2 [6] (some 1) none]

theorem exOnto_wf : exOnto.WF := by
  constructor
  · intro r
    by_cases h1 : r = 1
    · subst h1; rfl
    · by_cases h2 : r = 2
      · subst h2; rfl
      · simp [exOnto, h1, h2]
  · intro r; simp [exOnto]

theorem exTarget_ok : AllOk exOnto {} exTarget := by
  repeat' constructor
  all_goals decide

theorem exSource_ok : AllOk exOnto {} exSource := by
  repeat' constructor
  all_goals decide

/-- The hypotheses of the theorems above hold for these sessions. -/
theorem setup_example : ∃ A B, Refines (run exOnto {} exTarget).2 A ∧ Refines (run exOnto {} exSource).2 B ∧
    Setup idOrder exOnto (run exOnto {} exTarget).2 (run exOnto {} exSource).2 A B 4 2 := by
  apply setup_of_reachable idOrder_ok exOnto_wf
  · intro r; simp [exOnto]
  · exact run_reachable _ _ _ .init exTarget_ok
  · exact run_reachable _ _ _ .init exSource_ok
  · decide
  · decide
  · have h1 : ∀ t ∈ (run exOnto {} exTarget).2.g, t.p = .type → t.o = .cls 5 := by decide
    have h2 : ∀ t ∈ (run exOnto {} exSource).2.g, t.p = .type → t.o = .cls 5 := by decide
    intro x c c' h h'
    have e1 := h1 _ h rfl
    have e2 := h2 _ h' rfl
    cases e1
    cases e2
    rfl
  · have h1 : ∀ t ∈ (run exOnto {} exTarget).2.g, t.o ≠ .cuds t.s := by decide
    exact fun u r h => h1 _ h rfl

/-- The session after a successful call. -/
def okState : Option (Out (List Uid)) → Option Sess
  | some ⟨.ok _, s⟩ => some s
  | _ => none

/-- `4.add(newer version of 2, rel=hasPart)`: 2 and 6 are copied, the link to 8 is dropped, the old parent 1 is kept, the former content 3 is
disconnected, and the type of the unknown 8 is left behind. -/
theorem add_example : okState (addFrom idOrder exOnto 4 (run exOnto {} exTarget).2 4 [((run exOnto {} exSource).2, 2)] (some 1) none) =
    some ⟨
      [⟨1, .attr 7, .val 10⟩, ⟨1, .type, .cls 5⟩, ⟨3, .attr 7, .val 30⟩, ⟨3, .type, .cls 5⟩, ⟨4, .attr 7, .val 40⟩, ⟨4, .type, .cls 5⟩,
       ⟨1, .rel 1, .cuds 2⟩, ⟨2, .type, .cls 5⟩, ⟨2, .attr 7, .val 21⟩, ⟨8, .type, .cls 5⟩, ⟨2, .rel 1, .cuds 6⟩, ⟨6, .type, .cls 5⟩,
       ⟨2, .rel 2, .cuds 1⟩, ⟨6, .attr 7, .val 60⟩, ⟨6, .rel 2, .cuds 2⟩, ⟨4, .rel 1, .cuds 2⟩, ⟨2, .rel 2, .cuds 4⟩],
      [1, 2, 3, 4, 6], some 1⟩ := by
  decide +kernel

/-! ### Where the properties fail in the code as it is -/

/-- Object 2 is part of 10 and of 11. -/
def lostTarget : List Op :=
  [.create 1 5 [(7, 10)], .create 10 5 [(7, 20)], .create 11 5 [(7, 30)], .create 2 5 [(7, 40)], .add 10 [2] (some 1) none, .add 11 [2] (some 1) none]

/-- **C25 fails.** When the replaced object has two parents by the same relationship, `_fix_old_neighbors` restores only as many of them as the parent at
hand has kinds of relationships (it zips the two, cuds.py:559-561): the link from 2 back to its parent 11 is lost, while 11 still lists 2. -/
theorem old_parent_lost :
    (okState (addFrom idOrder exOnto 2 (run exOnto {} lostTarget).2 1 [((run exOnto {} [.create 2 5 [(7, 41)]]).2, 2)] (some 1) none)).map
      (fun s' => ((⟨2, .rel 2, .cuds 10⟩ : Triple) ∈ s'.g ∧ (⟨11, .rel 1, .cuds 2⟩ : Triple) ∈ s'.g ∧ (⟨2, .rel 2, .cuds 11⟩ : Triple) ∉ s'.g : Bool))
      = some true := by
  decide +kernel

/-- **Symmetry of links fails** when a copied object contains the object it is added to: the source's link from 2 to 1 is taken over, the link back
from 1 to 2 is not created. -/
theorem active_link_to_self_one_way :
    (okState (addFrom idOrder exOnto 3 (run exOnto {} [.create 1 5 [(7, 10)]]).2 1
      [((run exOnto {} [.create 1 5 [(7, 10)], .create 2 5 [(7, 41)], .add 2 [1] (some 1) none]).2, 2)] (some 1) none)).map
      (fun s' => ((⟨2, .rel 1, .cuds 1⟩ : Triple) ∈ s'.g ∧ (⟨1, .rel 2, .cuds 2⟩ : Triple) ∉ s'.g : Bool)) = some true := by
  decide +kernel

/-- A type left behind by a dropped link stays when an object with this uid is created later: the object then has two classes. -/
theorem stale_type_second_class :
    (okState (addFrom idOrder exOnto 4 (run exOnto {} exTarget).2 4 [((run exOnto {} exSource).2, 2)] (some 1) none)).map
      (fun s' => oclasses (create s' 8 6 [(7, 80)]).st.g 8) = some [5, 6] := by
  decide +kernel

/-! ### Several old parents: examples for both cases -/

/-- Example: a newer version of object 2, without any parents. -/
def newer2 : List Op := [.create 2 5 [(7, 41)]]

/-- Example: object 2 is part of 10 and of 11, and 10 is itself part of 1: it takes part in two kinds of relationships. -/
def richTarget : List Op := lostTarget ++ [.add 1 [10] (some 1) none]

theorem lostTarget_ok : AllOk exOnto {} lostTarget := by
  repeat' constructor
  all_goals decide

theorem richTarget_ok : AllOk exOnto {} richTarget := by
  repeat' constructor
  all_goals decide

theorem newer2_ok : AllOk exOnto {} newer2 := by
  repeat' constructor
  all_goals decide

theorem newer2_no_links : ∀ t ∈ (run exOnto {} newer2).2.g, ∀ r, t.p ≠ .rel r := by
  have h : ∀ t ∈ (run exOnto {} newer2).2.g, (match t.p with | .rel _ => false | _ => true) = true := by decide +kernel
  intro t ht r e
  have := h t ht
  rw [e] at this
  cases this

/-- Adding the newer version of 2 to object 1 is a situation as assumed, for every target history in which all objects have class 5. -/
theorem several_setup (ops : List Op) (hok : AllOk exOnto {} ops) (h1 : 1 ∈ (run exOnto {} ops).2.reg)
    (h2 : ∀ t ∈ (run exOnto {} ops).2.g, t.p = .type → t.o = .cls 5) (h3 : ∀ t ∈ (run exOnto {} ops).2.g, t.o ≠ .cuds t.s) :
    ∃ A B, Refines (run exOnto {} ops).2 A ∧ Setup idOrder exOnto (run exOnto {} ops).2 (run exOnto {} newer2).2 A B 1 2 ∧
      (∀ a q b, ¬ B.link a q b) ∧ ∀ a, Copied exOnto B 1 2 a ↔ a = 2 := by
  have hs2 : 2 ∈ (run exOnto {} newer2).2.reg := by decide +kernel
  have ht2 : ∀ t ∈ (run exOnto {} newer2).2.g, t.p = .type → t.o = .cls 5 := by decide +kernel
  obtain ⟨A, B, hA, hB, S⟩ := setup_of_reachable (me := 1) (n := 2) idOrder_ok exOnto_wf (by intro r; simp [exOnto])
    (run_reachable _ _ _ .init hok) (run_reachable _ _ _ .init newer2_ok) h1 hs2 (by
      intro x c c' h h'
      have e1 := h2 _ h rfl
      have e2 := ht2 _ h' rfl
      cases e1
      cases e2
      rfl) (fun u r h => h3 _ h rfl)
  have hno : ∀ a q b, ¬ B.link a q b := fun a q b h => newer2_no_links _ ((hB.link a q b).2 h) q rfl
  refine ⟨A, B, hA, S, hno, fun a => ⟨?_, ?_⟩⟩
  · rintro (_ | ⟨_, h, _, _⟩)
    · rfl
    · exact absurd h (hno _ _ _)
  · rintro rfl
    exact .start

/-- The links of `richTarget`. -/
theorem richTarget_links : (run exOnto {} richTarget).2.g.filter (fun t => match t.p with | .rel _ => true | _ => false) =
    [⟨10, .rel 1, .cuds 2⟩, ⟨2, .rel 2, .cuds 10⟩, ⟨11, .rel 1, .cuds 2⟩, ⟨2, .rel 2, .cuds 11⟩, ⟨1, .rel 1, .cuds 10⟩, ⟨10, .rel 2, .cuds 1⟩] := by
  decide +kernel

/-- The hypothesis `Rich` of `old_parents_kept_partial` holds for an object with two parents: both are kept. -/
theorem rich_example : ∃ A B, Refines (run exOnto {} richTarget).2 A ∧
    Setup idOrder exOnto (run exOnto {} richTarget).2 (run exOnto {} newer2).2 A B 1 2 ∧
    A.link 2 2 10 ∧ A.link 2 2 11 ∧ Rich exOnto A B (Copied exOnto B 1 2) 2 2 := by
  obtain ⟨A, B, hA, S, hno, hC⟩ := several_setup richTarget richTarget_ok (by decide +kernel) (by decide +kernel) (by decide +kernel)
  have hl : ∀ a q b, A.link a q b ↔ (⟨a, .rel q, .cuds b⟩ : Triple) ∈
      [(⟨10, .rel 1, .cuds 2⟩ : Triple), ⟨2, .rel 2, .cuds 10⟩, ⟨11, .rel 1, .cuds 2⟩, ⟨2, .rel 2, .cuds 11⟩, ⟨1, .rel 1, .cuds 10⟩, ⟨10, .rel 2, .cuds 1⟩] := by
    intro a q b
    rw [← hA.link, ← richTarget_links, List.mem_filter]
    simp
  refine ⟨A, B, hA, S, (hl _ _ _).2 (by decide), (hl _ _ _).2 (by decide), 10, (hl _ _ _).2 (by decide), by simp [hC], hno _ _ _, [1, 2], by decide, ?_, ?_⟩
  · intro p hp
    simp only [List.mem_cons, List.not_mem_nil, or_false] at hp
    rcases hp with rfl | rfl
    · exact Or.inl rfl
    · exact Or.inr ⟨1, by simp [hC], (hl _ _ _).2 (by decide)⟩
  · intro nbrs hn hy
    have hsub : nbrs ⊆ [10, 11] := by
      intro y h
      have := (hl _ _ _).1 (hy y h)
      simpa using this
    exact (List.subperm_of_subset hn hsub).length_le

/-- There, with the call carried out: both old parents of 2 are still connected. -/
theorem rich_kept : (okState (addFrom idOrder exOnto 2 (run exOnto {} richTarget).2 1 [((run exOnto {} newer2).2, 2)] (some 1) none)).map
      (fun s' => ((⟨2, .rel 2, .cuds 10⟩ : Triple) ∈ s'.g ∧ (⟨2, .rel 2, .cuds 11⟩ : Triple) ∈ s'.g : Bool)) = some true := by
  decide +kernel

/-- The links of `lostTarget`. -/
theorem lostTarget_links : (run exOnto {} lostTarget).2.g.filter (fun t => match t.p with | .rel _ => true | _ => false) =
    [⟨10, .rel 1, .cuds 2⟩, ⟨2, .rel 2, .cuds 10⟩, ⟨11, .rel 1, .cuds 2⟩, ⟨2, .rel 2, .cuds 11⟩] := by
  decide +kernel

/-- The hypotheses of `old_parents_lost_poor` hold in `lostTarget`: the two old parents take part in one kind of relationship each. -/
theorem poor_example : ∃ A B, Refines (run exOnto {} lostTarget).2 A ∧
    Setup idOrder exOnto (run exOnto {} lostTarget).2 (run exOnto {} newer2).2 A B 1 2 ∧ ¬ A.link 1 1 2 ∧
    Poor exOnto A B (Copied exOnto B 1 2) 2 2 1 ∧ ∀ y ∈ [10, 11], y ≠ 1 ∧ A.link 2 2 y ∧ ¬ B.link 2 2 y := by
  obtain ⟨A, B, hA, S, hno, hC⟩ := several_setup lostTarget lostTarget_ok (by decide +kernel) (by decide +kernel) (by decide +kernel)
  have hl : ∀ a q b, A.link a q b ↔ (⟨a, .rel q, .cuds b⟩ : Triple) ∈
      [(⟨10, .rel 1, .cuds 2⟩ : Triple), ⟨2, .rel 2, .cuds 10⟩, ⟨11, .rel 1, .cuds 2⟩, ⟨2, .rel 2, .cuds 11⟩] := by
    intro a q b
    rw [← hA.link, ← lostTarget_links, List.mem_filter]
    simp
  refine ⟨A, B, hA, S, fun h => absurd ((hl _ _ _).1 h) (by decide), ?_, ?_⟩
  · intro x hx _
    have hx : x = 10 ∨ x = 11 := by simpa using (hl _ _ _).1 hx
    refine ⟨by rw [hC]; rcases hx with rfl | rfl <;> decide, fun kinds hn hk => ?_⟩
    have hsub : kinds ⊆ [1] := by
      intro p hp
      obtain ⟨y, h | h⟩ := hk p hp
      · have := (hl _ _ _).1 h
        rcases hx with rfl | rfl <;> simp at this <;> simp [this]
      · exact absurd h.2.1 (hno _ _ _)
    exact (List.subperm_of_subset hn hsub).length_le
  · intro y hy
    refine ⟨?_, (hl _ _ _).2 ?_, hno _ _ _⟩ <;> simp only [List.mem_cons, List.not_mem_nil, or_false] at hy <;> rcases hy with rfl | rfl <;> decide

end Osp.Store
