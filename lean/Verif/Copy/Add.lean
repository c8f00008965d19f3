import Verif.Copy.Pins
import Verif.Copy.Witness
/-! Adding a copy to any session: carrying an object over, and putting a removed object back. -/
namespace Osp.Copy
open Osp.Cuds Osp.Store

variable {E : Order} {O : Onto} {s0 src : Sess} {me n : Uid}

/-- **C108, add (part).** A copy of an object without content, of any session reached by any history, is added by a relationship `r` to an object `me` of any other (or the same) session
reached by any history: the object is there with the class and the attribute values it had when the copy was made, linked by `r` from `me` and by the
inverse to `me`; it has the links it had in the copy to objects that exist there, and no others but this one and those to its old parents there; all
other objects keep their classes, attribute values and the links between them. (Conditions as for `copy_undo_partial`.) Missing: objects with content, for which the
claim fails (`copy_with_content`). -/
theorem copy_to_session_partial (hE : E.Ok) (hW : O.WF) (hrefl : ∀ r, O.subRel r r = true) (hs0 : Reachable O s0) (hsrc : Reachable O src)
    (hn : n ∈ src.reg) (hme : me ∈ s0.reg)
    (hcls : ∀ x c c', (⟨x, .type, .cls c⟩ : Triple) ∈ s0.g → (⟨x, .type, .cls c'⟩ : Triple) ∈ src.g → c = c')
    (hloop : ∀ u r, (⟨u, .rel r, .cuds u⟩ : Triple) ∉ s0.g)
    (hno : ∀ r x, (⟨n, .rel r, .cuds x⟩ : Triple) ∈ src.g → Active O r → x = n ∨ x = me)
    (rel d : Option Rel) (r : Rel) (hr : rel.or d = some r) (hnew : (⟨me, .rel r, .cuds n⟩ : Triple) ∉ s0.g) :
    ∃ s', addCopy E O s0 me (copy src.g n) rel d = ⟨.ok n, s'⟩ ∧
      n ∈ s'.reg ∧ (⟨me, .rel r, .cuds n⟩ : Triple) ∈ s'.g ∧ (⟨n, .rel (O.inv r), .cuds me⟩ : Triple) ∈ s'.g ∧
      (∀ c, (⟨n, .type, .cls c⟩ : Triple) ∈ s'.g ↔ (⟨n, .type, .cls c⟩ : Triple) ∈ src.g) ∧
      (∀ a v, (⟨n, .attr a, .val v⟩ : Triple) ∈ s'.g ↔ (⟨n, .attr a, .val v⟩ : Triple) ∈ src.g) ∧
      (∀ q x, (⟨n, .rel q, .cuds x⟩ : Triple) ∈ src.g → x ∈ s0.reg → (⟨n, .rel q, .cuds x⟩ : Triple) ∈ s'.g) ∧
      (∀ q x, (⟨n, .rel q, .cuds x⟩ : Triple) ∈ s'.g →
        (⟨n, .rel q, .cuds x⟩ : Triple) ∈ src.g ∨ ((⟨n, .rel q, .cuds x⟩ : Triple) ∈ s0.g ∧ ¬ Active O q) ∨ (x = me ∧ q = O.inv r) ∨ (x = n ∧ n = me ∧ q = r)) ∧
      (∀ u, u ≠ n → (u ∈ s'.reg ↔ u ∈ s0.reg)) ∧
      (∀ u a v, u ≠ n → ((⟨u, .attr a, .val v⟩ : Triple) ∈ s'.g ↔ (⟨u, .attr a, .val v⟩ : Triple) ∈ s0.g)) ∧
      (∀ u q x, u ≠ n → x ≠ n → ((⟨u, .rel q, .cuds x⟩ : Triple) ∈ s'.g ↔ (⟨u, .rel q, .cuds x⟩ : Triple) ∈ s0.g)) := by
  obtain ⟨A, B, hA, hB, S⟩ := setup_of_reachable hE hW hrefl hs0 hsrc hme hn hcls hloop
  obtain ⟨s', A', h1, hi, hv, _⟩ := copy_added_partial S (fun r x hl => hno r x ((hB.link n r x).2 hl)) rel d r hr (fun h => hnew ((hA.link me r n).2 h))
  have hk : B.cls n ≠ none := (hB.reg n).1 hn
  refine ⟨s', h1, (hv.reg n).2 ?_, (hv.link me r n).2 (Or.inr (Or.inl ⟨rfl, rfl, by simp⟩)), (hv.link n _ me).2 (Or.inr (Or.inr ⟨rfl, rfl, by simp⟩)), ?_, ?_, ?_, ?_, ?_, ?_, ?_⟩
  · show A'.cls n ≠ none
    rw [hi.cls_copied n rfl]
    exact hk
  · intro c
    obtain ⟨k, hk⟩ := Option.ne_none_iff_exists'.1 hk
    have hc : (A'.connect O.inv me r [n]).cls n = some k := (hi.cls_copied n rfl).trans hk
    rw [hv.type n k c hc, hB.type, hk]
    simp [eq_comm]
  · intro a v
    rw [hv.attr, hB.attr]
    show A'.attr n a = some v ↔ _
    rw [hi.attr_copied n rfl]
  · intro q x hl hx
    rw [hv.link]
    left
    by_cases hxn : x = n
    · exact hi.link_copied n q x rfl hxn ((hB.link n q x).1 hl)
    · exact hi.link_out n q x rfl hxn ((hB.link n q x).1 hl) ((hA.reg x).1 hx)
  · intro q x hl
    rw [hv.link] at hl
    rcases hl with hl | ⟨h1, h2, h3⟩ | ⟨h1, h2, _⟩
    · by_cases hxn : x = n
      · rcases hi.link_copied_only n q x rfl hxn hl with h | ⟨h, h', _⟩
        · exact Or.inl ((hB.link n q x).2 h)
        · exact Or.inr (Or.inl ⟨(hA.link n q x).2 h, h'⟩)
      · rcases hi.link_out_only n q x rfl hxn hl with ⟨h, _⟩ | ⟨h, h'⟩
        · exact Or.inl ((hB.link n q x).2 h)
        · exact Or.inr (Or.inl ⟨(hA.link n q x).2 h, h'⟩)
    · exact Or.inr (Or.inr (Or.inr ⟨by simpa using h3, h1, h2⟩))
    · exact Or.inr (Or.inr (Or.inl ⟨h1, h2⟩))
  · intro u hu
    rw [hv.reg, hA.reg]
    show A'.cls u ≠ none ↔ _
    rw [hi.cls_other u hu]
  · intro u a v hu
    rw [hv.attr, hA.attr]
    show A'.attr u a = some v ↔ _
    rw [hi.attr_other u hu]
  · intro u q x hu hx
    rw [hv.link, hA.link]
    constructor
    · rintro (h | ⟨_, _, h⟩ | ⟨_, _, h⟩)
      · exact (hi.link_other u q x hu hx).1 h
      · exact absurd (by simpa using h) hx
      · exact absurd (by simpa using h) hu
    · exact fun h => Or.inl ((hi.link_other u q x hu hx).2 h)

/-- Example: another session, with 1 (another value) and 4. -/
def other : List Op := [.create 1 5 [(7, 11)], .create 4 5 [(7, 40)]]

theorem other_ok : AllOk exOnto {} other := by
  repeat' constructor
  all_goals decide

/-- The graph of the other session. -/
theorem other_graph : (run exOnto {} other).2.g =
    [⟨1, .attr 7, .val 11⟩, ⟨1, .type, .cls 5⟩, ⟨4, .attr 7, .val 40⟩, ⟨4, .type, .cls 5⟩] := by
  decide +kernel

/-- The conditions of `copy_to_session_partial` hold: the copy of 2 is added to 4 in the other session; 2 is linked to 4 and, as in its old session, to 1. -/
theorem carried : ∃ s', addCopy idOrder exOnto (run exOnto {} other).2 4 (copy (run exOnto {} before).2.g 2) none (some 1) = ⟨.ok 2, s'⟩ ∧
    (⟨4, .rel 1, .cuds 2⟩ : Triple) ∈ s'.g ∧ (⟨2, .attr 7, .val 20⟩ : Triple) ∈ s'.g ∧ (⟨2, .rel 2, .cuds 1⟩ : Triple) ∈ s'.g ∧
    (⟨1, .attr 7, .val 11⟩ : Triple) ∈ s'.g := by
  have hty : ∀ t ∈ (run exOnto {} before).2.g, t.p = .type → t.o = .cls 5 := by decide +kernel
  have hty' : ∀ t ∈ (run exOnto {} other).2.g, t.p = .type → t.o = .cls 5 := by decide +kernel
  have hlp : ∀ t ∈ (run exOnto {} other).2.g, t.o ≠ .cuds t.s := by decide +kernel
  have hl : ∀ t ∈ (run exOnto {} before).2.g, t.s = 2 → ∀ r ∈ [t.p], r = .rel 1 → False := by decide +kernel
  have hn : 2 ∈ (run exOnto {} before).2.reg := by decide +kernel
  have hme : 4 ∈ (run exOnto {} other).2.reg := by decide +kernel
  have h1 : 1 ∈ (run exOnto {} other).2.reg := by decide +kernel
  obtain ⟨s', h, _, hlk, _, _, hat, hout, _, _, hoth, _⟩ := copy_to_session_partial (E := idOrder) (O := exOnto) (me := 4) (n := 2) idOrder_ok exOnto_wf
    (by intro r; simp [exOnto]) (run_reachable _ _ _ .init other_ok) (run_reachable _ _ _ .init before_ok) hn hme (by
      intro x c c' h h'
      have e1 := hty' _ h rfl
      have e2 := hty _ h' rfl
      cases e1
      cases e2
      rfl) (fun u r h => hlp _ h rfl) (by
      intro r x h ha
      refine absurd rfl (fun e => hl _ h e (.rel r) (by simp) ?_)
      simpa [Active, exOnto] using ha) none (some 1) 1 rfl (by rw [other_graph]; decide)
  refine ⟨s', h, hlk, (hat 7 20).2 (by rw [before_graph]; decide), hout 2 1 (by rw [before_graph]; decide) h1, (hoth 1 7 11 (by decide)).2 (by rw [other_graph]; decide)⟩

/-- Example: 2 is changed and taken out of 1, which is put right by adding the copy made before. -/
def gone : List Op := [.setAttr 2 7 21, .remove 1 [2] none none]

theorem put_back :
    let s := (run exOnto {} before).2
    let s' := (run exOnto s gone).2
    let o := addCopy idOrder exOnto s' 1 (copy s.g 2) (some 1) none
    (⟨1, .rel 1, .cuds 2⟩ : Triple) ∉ s'.g ∧ o.res.toOption = some 2 ∧ (⟨1, .rel 1, .cuds 2⟩ : Triple) ∈ o.st.g ∧ (⟨2, .attr 7, .val 20⟩ : Triple) ∈ o.st.g ∧
      (⟨2, .attr 7, .val 21⟩ : Triple) ∉ o.st.g := by
  decide +kernel

end Osp.Copy
