import Verif.Copy.Lemmas
import Verif.Store.Props
/-!
# Properties of copies

`A` is the user's view of the session an object is copied from at that time (`B` in the theorems that add the copy to a session with view `A`, as in
`Verif.Store.Spec`).
-/
namespace Osp.Copy
open Osp.Cuds Osp.Store

variable {E : Order} {O : Onto}

/-! ### Reading a copy -/

theorem copy_link {g : Graph} (hn : g.Nodup) (u : Uid) (r : Rel) (o : Obj) : (⟨u, .rel r, o⟩ : Triple) ∈ (copy g u).g ↔ (⟨u, .rel r, o⟩ : Triple) ∈ g := by
  have h : ∀ g : Graph, (⟨u, .rel r, o⟩ : Triple) ∈ g ↔ (⟨u, .rel r, o⟩ : Triple) ∈ g.triples (some u) none none := by
    intro g
    rw [mem_gtriples, matchesPat_iff]
    simp
  rw [h, copy_own hn, ← h]

theorem copy_oclasses {g : Graph} (hn : g.Nodup) (u : Uid) : oclasses (copy g u).g u = oclasses g u := by
  unfold oclasses
  rw [copy_own_pat hn]

/-- **C108, reading.** A copy of an object of a session with view `A` shows exactly what the object shows at the time it is made: its class, the value
of every attribute (also the error for one that has no value or that the class does not have), its links, and the class of every neighbour;
and it is equal to the object. -/
theorem copy_shows {s : Sess} {A : Abs} (h : Refines s A) (u : Uid) :
    (copy s.g u).u = u ∧ oclass (copy s.g u).g u = A.cls u ∧
    (∀ a, (copy s.g u).getAttr O a = Cuds.getAttr O s u a) ∧
    (∀ a v, (⟨u, .attr a, .val v⟩ : Triple) ∈ (copy s.g u).g ↔ A.attr u a = some v) ∧
    (∀ r x, (⟨u, .rel r, .cuds x⟩ : Triple) ∈ (copy s.g u).g ↔ A.link u r x) ∧
    (∀ r x, A.link u r x → oclass (copy s.g u).g x = A.cls x) ∧
    (copy s.g u).eq s.g u = true := by
  have hcls : ∀ x, oclass s.g x = A.cls x := fun x => oclass_ref h x
  have hocl : oclass (copy s.g u).g u = oclass s.g u := by
    unfold oclass
    rw [copy_oclasses h.nodup]
  refine ⟨rfl, hocl.trans (hcls u), ?_, ?_, ?_, ?_, ?_⟩
  · intro a
    unfold Copy.getAttr Cuds.getAttr Copy.sess
    simp only [show (copy s.g u).u = u from rfl, hocl]
    rw [copy_own_pat h.nodup]
  · intro a v
    rw [← h.attr]
    have hg : ∀ g : Graph, (⟨u, .attr a, .val v⟩ : Triple) ∈ g ↔ (⟨u, .attr a, .val v⟩ : Triple) ∈ g.triples (some u) none none := by
      intro g
      rw [mem_gtriples, matchesPat_iff]
      simp
    rw [hg, copy_own h.nodup, ← hg]
  · intro r x
    rw [copy_link h.nodup, h.link]
  · intro r x hl
    rw [← hcls x]
    unfold oclass oclasses
    rw [copy_types h.nodup u x r ((h.link u r x).2 hl)]
  · unfold Copy.eq
    simp [hocl, show (copy s.g u).u = u from rfl]

/-- **C108, copies of copies.** A copy of a copy shows the same. -/
theorem copy_again (g : Graph) (u : Uid) : (copy (copy g u).g u).g.triples (some u) none none = (copy g u).g.triples (some u) none none := by
  apply copy_own
  unfold copy
  simp only
  have : ∀ (l : List Triple) (g : Graph), g.Nodup → (l.foldl Graph.add g).Nodup := by
    intro l
    induction l with
    | nil => exact fun g h => h
    | cons t l ih => exact fun g h => ih _ (nodup_gadd h)
  exact this _ _ List.nodup_nil

/-- **C108, writing.** Setting an attribute of a copy works as on an object of a session: it is refused for a name the class does not have and for a
value that cannot be converted, without any change; else the copy has this value, and all its other attributes, links and classes stay. -/
theorem copy_set (c : Copy) (a : Attr) (v : Val) :
    (∀ k, oclass c.g c.u = some k → a ∈ O.attrs k → ∀ w, O.conv a v = some w →
      (c.setAttr O a v).1 = .ok () ∧ (c.setAttr O a v).2.u = c.u ∧
      ((∀ o, (⟨c.u, .attr a, o⟩ : Triple) ∈ (c.setAttr O a v).2.g ↔ o = .val w)) ∧
      ∀ t, ¬ (t.s = c.u ∧ t.p = .attr a) → (t ∈ (c.setAttr O a v).2.g ↔ t ∈ c.g)) ∧
    (∀ k, oclass c.g c.u = some k → a ∉ O.attrs k → c.setAttr O a v = (.error .attributeError, c)) ∧
    (∀ k, oclass c.g c.u = some k → a ∈ O.attrs k → O.conv a v = none → c.setAttr O a v = (.error .valueError, c)) := by
  refine ⟨?_, ?_, ?_⟩
  · intro k hk ha w hw
    have hset : Cuds.setAttr O c.sess c.u a v = ⟨.ok (), { c.sess with g := c.sess.g.set ⟨c.u, .attr a, .val w⟩ }⟩ := by
      unfold Cuds.setAttr
      rw [show oclass c.sess.g c.u = some k from hk]
      simp only [ha, not_true_eq_false, if_false, hw]
    unfold Copy.setAttr
    rw [hset]
    have hm : ∀ t, t ∈ c.g.set ⟨c.u, .attr a, .val w⟩ ↔ t = ⟨c.u, .attr a, .val w⟩ ∨ (t ∈ c.g ∧ ¬ (t.s = c.u ∧ t.p = .attr a)) := by
      intro t
      unfold Graph.set
      rw [mem_gadd, mem_gremove, Bool.eq_false_iff, ne_eq, matchesPat_iff]
      simp [eq_comm]
    refine ⟨rfl, rfl, fun o => ?_, fun t ht => ?_⟩
    · simp only [Copy.sess]
      rw [hm]
      simp
    · simp only [Copy.sess]
      rw [hm]
      constructor
      · rintro (rfl | h)
        · exact absurd ⟨rfl, rfl⟩ ht
        · exact h.1
      · exact fun h => Or.inr ⟨h, ht⟩
  · intro k hk ha
    unfold Copy.setAttr Cuds.setAttr
    rw [show oclass c.sess.g c.u = some k from hk]
    simp [ha, Copy.sess]
  · intro k hk ha hv
    unfold Copy.setAttr Cuds.setAttr
    rw [show oclass c.sess.g c.u = some k from hk]
    simp [ha, hv, Copy.sess]

/-- **C108, a copy has no session.** Whatever would follow or change the links of a copy is refused. -/
theorem copy_closed (c : Copy) (uids : List Uid) (oc : Option Cls) (rel d : Option Rel) :
    (c.get uids none = .error .attributeError) ∧ (c.get [] oc = .error .attributeError) ∧
    (c.remove uids none = .error .attributeError) ∧ (c.update uids = .error .attributeError) ∧
    (c.add rel d = .error .typeError ∨ c.add rel d = .error .attributeError) ∧ (∀ r, c.add (some r) d = .error .attributeError) := by
  refine ⟨by simp [Copy.get], by simp [Copy.get], by simp [Copy.remove, Copy.get], by simp [Copy.update, Copy.get], ?_, fun r => rfl⟩
  unfold Copy.add
  cases rel.or d <;> simp

/-! ### Adding a copy -/

theorem foldl_congr_mem {α β : Type} (f f' : β → α → β) (l : List α) (h : ∀ b, ∀ a ∈ l, f b a = f' b a) (b : β) : l.foldl f b = l.foldl f' b := by
  induction l generalizing b with
  | nil => rfl
  | cons a l ih =>
    simp only [List.foldl_cons]
    rw [h b a (by simp)]
    exact ih (fun b a ha => h b a (List.mem_cons_of_mem _ ha)) _

/-- A copy is stored as the object it was made of would be. -/
theorem createFrom_copy (hE : E.Ok) {src : Sess} (hn : src.g.Nodup) (s : Sess) (u : Uid) : createFrom E (copy src.g u).sess s u = createFrom E src s u := by
  have h1 : oclass (copy src.g u).g u = oclass src.g u := by
    unfold oclass
    rw [copy_oclasses hn]
  have h2 : attrsOf (copy src.g u).g u = attrsOf src.g u := by
    unfold attrsOf
    rw [copy_own hn]
  have h3 : keysOf E (copy src.g u).g u = keysOf E src.g u := by
    unfold keysOf neighborRels
    rw [copy_own hn]
  have h4 : ∀ r, tgtsOf E (copy src.g u).g u r = tgtsOf E src.g u r := by
    intro r
    unfold tgtsOf targets
    rw [copy_own_pat hn]
  have h5 : ∀ g, copyLinks E (copy src.g u).g u g = copyLinks E src.g u g := by
    intro g
    unfold copyLinks
    rw [h3]
    apply foldl_congr_mem
    intro g' r _
    rw [h4]
    apply foldl_congr_mem
    intro g'' x hx
    congr 1
    unfold oclasses
    rw [copy_types hn u x r ((mem_tgtsOf hE).1 hx)]
  unfold createFrom
  simp only [Copy.sess, h1, h2, h5]

variable {s0 src : Sess} {A B : Abs} {me n : Uid}

theorem enqueueAll_known (s : Sess) (u : Uid) (r : Rel) (xs : List Uid) (v : Vars) (h : ∀ x ∈ xs, x ∈ v.stored) : enqueueAll O src s u r xs v = .ok v := by
  induction xs with
  | nil => rfl
  | cons x xs ih =>
    unfold enqueueAll enqueue
    rw [if_pos (h x (by simp))]
    exact ih fun y hy => h y (List.mem_cons_of_mem _ hy)

theorem children_known (s : Sess) (u : Uid) (rs : List Rel) (v : Vars) (h : ∀ r ∈ rs, active O r = true → ∀ x ∈ tgtsOf E s.g u r, x ∈ v.stored) :
    children E O src s u rs v = .ok v := by
  induction rs with
  | nil => rfl
  | cons r rs ih =>
    have ih := ih fun q hq => h q (List.mem_cons_of_mem _ hq)
    unfold children
    split
    · exact ih
    · rename_i ha
      rw [enqueueAll_known s u r _ v (h r (by simp) (by simpa using ha))]
      exact ih

/-- If the object had no content besides itself and `self`, storing the copy is storing the object as it was. -/
theorem storeCopy_eq (S : Setup E O s0 src A B me n) (hno : ∀ r x, B.link n r x → Active O r → x = n ∨ x = me) (fuel : Nat) :
    recursiveStore E O (fuel + 2) src s0 me n (n ∈ s0.reg) = some (storeCopy E O (copy src.g n) s0 me (n ∈ s0.reg)) := by
  obtain ⟨s1, g2, m2, h1, h2, I, hact, _⟩ := inv_step S (inv_init S) (u := n) (by simp) .start []
  have hmeets : meetsChild E O g2 n me = false := by
    unfold meetsChild
    rw [List.any_eq_false]
    intro r _
    simp only [Bool.and_eq_true, List.any_eq_true, not_and, not_exists]
    intro ha x hx
    rcases hno r x ((hact r x ha).1 ((mem_tgtsOf S.order).1 hx)) ha with rfl | rfl <;> simp
  have hchild : ∀ v : Vars, v.stored = [n, me] → children E O src { s1 with g := g2 } n (keysOf E g2 n) v = .ok v := by
    intro v hv
    apply children_known
    intro r _ ha x hx
    rw [hv]
    rcases hno r x ((hact r x ha).1 ((mem_tgtsOf S.order).1 hx)) ha with rfl | rfl <;> simp
  have h2' : fixNeighbors E O s1.reg n (if (decide (n ∈ s0.reg)) = true then some (cloneGraph s0.g n) else none) s1.g [] = .ok (g2, m2) := by
    simpa using h2
  have hone : storeOne E O src s0 n (decide (n ∈ s0.reg)) ⟨[], [n, me], []⟩ = ⟨.ok ⟨[], [n, me], m2⟩, { s1 with g := g2 }⟩ := by
    unfold storeOne
    simp only [h1, List.filter_nil, h2', hchild ⟨[], [n, me], m2⟩ rfl]
  have hstore : storeCopy E O (copy src.g n) s0 me (n ∈ s0.reg) = ⟨.ok n, { s1 with g := dropMissing m2 g2 }⟩ := by
    unfold storeCopy
    simp only [show (copy src.g n).u = n from rfl, createFrom_copy S.order S.viewB.nodup, h1, h2', hmeets]
    simp
  rw [hstore]
  unfold recursiveStore storeLoop
  simp only [hone]
  unfold storeLoop
  simp only

theorem copied_only (hno : ∀ r x, B.link n r x → Active O r → x = n ∨ x = me) (a : Uid) : Copied O B me n a ↔ a = n := by
  constructor
  · intro h
    induction h with
    | start => rfl
    | step _ hl ha hb ih => subst ih; exact (hno _ _ hl ha).resolve_right hb
  · rintro rfl; exact .start

/-- **C108, adding a copy (part).** A copy of an object without content (no neighbours by active relationships besides itself and `self`) can be added to any object `self`
of a session: the object is put into the session with the class, the attribute values and the links it had when the copy was made - over its present
version, if there is one - exactly as `Imported` says for `n` alone, and it is linked to `self`. -/
theorem copy_added_partial (S : Setup E O s0 src A B me n) (hno : ∀ r x, B.link n r x → Active O r → x = n ∨ x = me)
    (rel d : Option Rel) (r : Rel) (hr : rel.or d = some r) (hnew : ¬ A.link me r n) :
    ∃ s' A', addCopy E O s0 me (copy src.g n) rel d = ⟨.ok n, s'⟩ ∧ Imported O A B (· = n) A' ∧ Views s' (A'.connect O.inv me r [n]) ∧
      s'.root = s0.root := by
  have heq := storeCopy_eq S hno src.reg.length
  obtain ⟨s1, A', h1, hv, hi, _, _, hroot, _⟩ := recursiveStore_spec S (src.reg.length + 2) (by omega)
  rw [heq] at h1
  have h1 := Option.some.inj h1
  have hC : (Copied O B me n) = (· = n) := funext fun a => propext (copied_only hno a)
  rw [hC] at hi
  refine ⟨{ s1 with g := addInverse O (addDirect s1.g me n r) n me r }, A', ?_, hi, views_connect_one hv me n r, hroot⟩
  unfold addCopy
  rw [hr]
  have hno' : ¬ (r ∈ neighborRels s0.g me ∧ (copy src.g n).u ∈ targets s0.g me r) := by
    rintro ⟨_, h⟩
    rw [mem_targets, S.viewA.link] at h
    exact hnew h
  simp only
  rw [if_neg hno', show (copy src.g n).u = n from rfl, h1]

/-- **C108, restoring from a copy (part).** If `n` is content of `self`, had no content of its own when the copy was made, `self.update(copy)` gives it back the class and the
attribute values it had then. -/
theorem copy_restores_partial (S : Setup E O s0 src A B me n) (hA : Refines s0 A) (hno : ∀ r x, B.link n r x → Active O r → x = n ∨ x = me)
    (hin : ∃ r, A.link me r n ∧ Active O r) :
    ∃ s' A', updateCopy E O s0 me (copy src.g n) = ⟨.ok n, s'⟩ ∧ Imported O A B (· = n) A' ∧ Views s' A' ∧ s'.root = s0.root ∧
      A'.cls n = B.cls n ∧ A'.attr n = B.attr n := by
  obtain ⟨s1, A', h1, hi, _, _, hv, hroot⟩ := (update_from_other_session S hA (src.reg.length + 2) (by omega)).1 hin
  have hC : (Copied O B me n) = (· = n) := funext fun a => propext (copied_only hno a)
  rw [hC] at hi
  refine ⟨s1, A', ?_, hi, hv, hroot, hi.cls_copied n rfl, hi.attr_copied n rfl⟩
  have hreg : n ∈ s0.reg := by
    obtain ⟨r, hl, _⟩ := hin
    exact (hA.reg n).2 (S.cohA.dst _ _ _ hl)
  have heq := storeCopy_eq S hno src.reg.length
  simp only [hreg, decide_true] at heq
  unfold update at h1
  unfold updateCopy
  rw [show (copy src.g n).u = n from rfl]
  split at h1
  · rename_i e he
    cases h1
  · rename_i he
    rw [he]
    rw [heq] at h1
    exact Option.some.inj h1
  · cases h1

/-- **C108 fails for objects with content.** If the object had content (besides itself and `self`) when the copy was made, adding the copy raises AttributeError -
after the present version of the object, if there is one, has been overwritten with the copied class and attribute values, and without linking it to `self`; links to
objects that do not exist in the session stay as well. -/
theorem copy_with_content (S : Setup E O s0 src A B me n) (hyes : ∃ r x, B.link n r x ∧ Active O r ∧ x ≠ n ∧ x ≠ me)
    (rel d : Option Rel) (r : Rel) (hr : rel.or d = some r) (hnew : ¬ A.link me r n) :
    ∃ s', addCopy E O s0 me (copy src.g n) rel d = ⟨.error .attributeError, s'⟩ ∧ n ∈ s'.reg ∧
      (∀ c, (⟨n, .type, .cls c⟩ : Triple) ∈ s'.g ↔ B.cls n = some c) ∧
      (∀ a v, (⟨n, .attr a, .val v⟩ : Triple) ∈ s'.g ↔ B.attr n a = some v) ∧
      (∀ q x, B.link n q x → (⟨n, .rel q, .cuds x⟩ : Triple) ∈ s'.g) ∧
      (∀ u a v, u ≠ n → ((⟨u, .attr a, .val v⟩ : Triple) ∈ s'.g ↔ A.attr u a = some v)) ∧
      (∀ x, x ≠ n → A.cls x = none → x ∉ s'.reg) ∧
      (me ≠ n → ¬ B.link n (O.inv r) me → (⟨me, .rel r, .cuds n⟩ : Triple) ∉ s'.g) := by
  obtain ⟨s1, g2, m2, h1, h2, I, hact, _⟩ := inv_step S (inv_init S) (u := n) (by simp) .start []
  have hmeets : meetsChild E O g2 n me = true := by
    obtain ⟨q, x, hl, ha, hxn, hxm⟩ := hyes
    have hin := (hact q x ha).2 hl
    unfold meetsChild
    rw [List.any_eq_true]
    refine ⟨q, (mem_keysOf S.order).2 (neighborRels_of hin), ?_⟩
    rw [Bool.and_eq_true, List.any_eq_true]
    exact ⟨ha, x, (mem_tgtsOf S.order).2 hin, by simp [hxn, hxm]⟩
  have h2' : fixNeighbors E O s1.reg n (if (decide (n ∈ s0.reg)) = true then some (cloneGraph s0.g n) else none) s1.g [] = .ok (g2, m2) := by
    simpa using h2
  have hstore : storeCopy E O (copy src.g n) s0 me (n ∈ s0.reg) = ⟨.error .attributeError, { s1 with g := g2 }⟩ := by
    unfold storeCopy
    simp only [show (copy src.g n).u = n from rfl, createFrom_copy S.order S.viewB.nodup, h1, h2', hmeets]
    simp
  refine ⟨{ s1 with g := g2 }, ?_, (I.reg n).2 (Or.inr (by simp)), fun c => I.typeP n c (by simp), fun a v => I.attrP n a v (by simp),
    fun q x hl => I.link1B n q x (by simp) hl, fun u a v hu => I.attrO u a v (by simp [hu]), ?_, ?_⟩
  · unfold addCopy
    rw [hr]
    have hno' : ¬ (r ∈ neighborRels s0.g me ∧ (copy src.g n).u ∈ targets s0.g me r) := by
      rintro ⟨_, h⟩
      rw [mem_targets, S.viewA.link] at h
      exact hnew h
    simp only
    rw [if_neg hno', show (copy src.g n).u = n from rfl, hstore]
  · intro x hx hA h
    rcases (I.reg x).1 h with h | h
    · exact h hA
    · simp [hx] at h
  · intro hme hno h
    rcases (I.link01 me r n (by simp [hme]) (by simp)).1 h with h | h
    · exact hnew h.1
    · exact hno h.1

/-- **C108, undo (part).** A copy of an object without content is made in any session reached by any history of calls; then any further calls are made. If the
object is still content of `self`, `self.update(copy)` gives it back the class and the attribute values it had, and leaves the attribute values of all other objects as they
are now. (Conditions: no uid was reused for an object of another class, and no object is linked to itself.) Missing: objects with content, for which the claim
fails (`copy_with_content`, `content_overwritten`). -/
theorem copy_undo_partial (hE : E.Ok) (hW : O.WF) (hrefl : ∀ r, O.subRel r r = true) (hsrc : Reachable O src) (ops : List Op) (hok : AllOk O src ops)
    (hn : n ∈ src.reg) (hme : me ∈ (run O src ops).2.reg)
    (hcls : ∀ x c c', (⟨x, .type, .cls c⟩ : Triple) ∈ (run O src ops).2.g → (⟨x, .type, .cls c'⟩ : Triple) ∈ src.g → c = c')
    (hloop : ∀ u r, (⟨u, .rel r, .cuds u⟩ : Triple) ∉ (run O src ops).2.g)
    (hno : ∀ r x, (⟨n, .rel r, .cuds x⟩ : Triple) ∈ src.g → Active O r → x = n ∨ x = me)
    (hin : ∃ r, (⟨me, .rel r, .cuds n⟩ : Triple) ∈ (run O src ops).2.g ∧ Active O r) :
    ∃ s', updateCopy E O (run O src ops).2 me (copy src.g n) = ⟨.ok n, s'⟩ ∧
      (∀ a v, (⟨n, .attr a, .val v⟩ : Triple) ∈ s'.g ↔ (⟨n, .attr a, .val v⟩ : Triple) ∈ src.g) ∧
      (∀ c, (⟨n, .type, .cls c⟩ : Triple) ∈ s'.g ↔ (⟨n, .type, .cls c⟩ : Triple) ∈ src.g) ∧
      (∀ u a v, u ≠ n → ((⟨u, .attr a, .val v⟩ : Triple) ∈ s'.g ↔ (⟨u, .attr a, .val v⟩ : Triple) ∈ (run O src ops).2.g)) := by
  obtain ⟨A, B, hA, hB, S⟩ := setup_of_reachable hE hW hrefl (run_reachable O ops src hsrc hok) hsrc hme hn hcls hloop
  obtain ⟨r, hr, ha⟩ := hin
  obtain ⟨s', A', h1, hi, hv, _, hc, hat⟩ := copy_restores_partial S hA (fun r x hl => hno r x ((hB.link n r x).2 hl)) ⟨r, (hA.link me r n).1 hr, ha⟩
  refine ⟨s', h1, ?_, ?_, ?_⟩
  · intro a v
    rw [hv.attr, hat, hB.attr]
  · intro c
    obtain ⟨k, hk⟩ := Option.ne_none_iff_exists'.1 ((hB.reg n).1 hn)
    rw [hv.type n k c (hc.trans hk), hB.type, hk]
    simp [eq_comm]
  · intro u a v hu
    rw [hv.attr, hi.attr_other u hu, hA.attr]

end Osp.Copy
