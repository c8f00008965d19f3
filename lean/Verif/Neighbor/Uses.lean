import Verif.Neighbor.Equal
/-!
# What `Cuds.add` and `Cuds.remove` do to the dictionaries (C87)

The model of the CUDS API (`Verif.Cuds`) works on the graph directly. Here: going through the dictionaries has the same effect, and this is what
the session hears.
-/
namespace Osp.Neighbor
open Osp.Cuds

theorem read_read_g (sess : Bool) (me : Uid) (st : St) : (notifyRead sess me (notifyRead sess me st)).g = st.seen sess := by
  rw [read_g, read_twice]

/-- **C87, connecting.** Connecting through the dictionaries never fails; the graph is the one of `Cuds._add_direct`; and the session hears about an
update exactly if the object was not there yet. -/
theorem add_direct_exact (sess : Bool) (me x : Uid) (r : Rel) (st : St) :
    (addDirect sess me x (oclasses (st.seen sess) x) r st).res = .ok () ∧
    (addDirect sess me x (oclasses (st.seen sess) x) r st).st.g = Cuds.addDirect (st.seen sess) me x r ∧
    (¬ (∃ o, ⟨me, .rel r, o⟩ ∈ st.seen sess) → (addDirect sess me x (oclasses (st.seen sess) x) r st).st.log =
      st.log ++ heard sess [.read me, .read me, .read me, .update me, .update me]) ∧
    ((∃ o, ⟨me, .rel r, o⟩ ∈ st.seen sess) → ¬ Linked (st.seen sess) me r x → (addDirect sess me x (oclasses (st.seen sess) x) r st).st.log =
      st.log ++ heard sess [.read me, .read me, .read me, .read me, .read me, .update me]) ∧
    (Linked (st.seen sess) me r x → (addDirect sess me x (oclasses (st.seen sess) x) r st).st.log =
      st.log ++ heard sess [.read me, .read me, .read me]) := by
  generalize ho : oclasses (st.seen sess) x = ocs
  obtain ⟨⟨rs, e, _, hm⟩, _⟩ := rel_iter_exact sess me st
  have hin : r ∈ rs ↔ r ∈ neighborRels (st.seen sess) me := by rw [hm, mem_neighborRels]
  unfold addDirect Res.bind Cuds.addDirect
  simp only [e, relGet, targetIter, ho]
  by_cases hr : r ∈ rs
  · have hr' := hin.1 hr
    rw [if_neg (Classical.not_not.2 hr), if_neg (Classical.not_not.2 hr')]
    have hgg : (notifyRead sess me (notifyRead sess me (notifyRead sess me st))).g = st.seen sess := by
      rw [read_g, read_twice, read_twice]
    simp only [hgg]
    have hex := (hm r).1 hr
    by_cases hx : x ∈ targets (st.seen sess) me r
    · rw [if_neg (Classical.not_not.2 hx), if_neg (Classical.not_not.2 hx)]
      have hx' : Linked (st.seen sess) me r x := mem_targets.1 hx
      refine ⟨rfl, hgg, fun h => absurd hex h, fun _ h => absurd hx' h, fun _ => ?_⟩
      simp only [read_log, List.append_assoc, heard_append]; rfl
    · rw [if_pos hx, if_pos hx]
      have hx' : ¬ Linked (st.seen sess) me r x := fun h => hx (mem_targets.2 h)
      obtain ⟨h1, h2, _, h4⟩ := targetSet_valid sess me r x ocs
        (notifyRead sess me (notifyRead sess me (notifyRead sess me (notifyRead sess me st))))
      refine ⟨h1, ?_, fun h => absurd hex h, fun _ _ => ?_, fun h => absurd h hx'⟩
      · rw [h4]; simp only [read_twice]
      · rw [h2]; simp only [read_log, List.append_assoc, heard_append]; rfl
  · have hr' := fun h => hr (hin.2 h)
    rw [if_pos hr, if_pos hr']
    have hex : ¬ ∃ o, ⟨me, .rel r, o⟩ ∈ st.seen sess := fun h => hr ((hm r).2 h)
    have hv : ∀ e ∈ [(TKey.uid x, TVal.classes ocs)], Valid e := by simp [Valid]
    obtain ⟨h1, h2, _⟩ := rel_set_exact sess me r [(.uid x, .classes ocs)] (notifyRead sess me st) hv
    refine ⟨h1, ?_, fun _ => ?_, fun h => absurd h hex, fun h => absurd ⟨_, h⟩ hex⟩
    · simp only [relSet, targetInit, targetUpdate, targetSet, update_g]
      rw [read_g, fresh_seen (fresh_with (fresh_read sess me _) _), read_g, read_twice]
    · rw [h2, read_log, List.append_assoc, heard_append]; rfl

/-- **C87, disconnecting.** It never fails, removes the one link and nothing else, and the session hears about the update. -/
theorem remove_direct_exact (sess : Bool) (me x : Uid) (r : Rel) (st : St) :
    (removeDirect sess me r x st).res = .ok () ∧
    (removeDirect sess me r x st).st.g = Cuds.removeDirect (st.seen sess) me r x ∧
    (∀ t, t ∈ (removeDirect sess me r x st).st.g ↔ t ∈ st.seen sess ∧ t ≠ ⟨me, .rel r, .cuds x⟩) ∧
    (removeDirect sess me r x st).st.log = st.log ++ heard sess [.read me, .read me, .update me, .read me] := by
  have hg : (removeDirect sess me r x st).st.g = delTarget (st.seen sess) me r x := by
    simp only [removeDirect, Res.bind, relGet, targetDel]
    rw [read_g, fresh_seen (fresh_update (fresh_with (fresh_read sess me _) _)), update_g]
    simp only [read_g, read_twice]
  refine ⟨rfl, hg, fun t => ?_, ?_⟩
  · rw [hg]
    have := (target_del_exact sess me r x st).2.2.1 t
    simpa only [targetDel, update_g, read_g] using this
  · simp only [removeDirect, Res.bind, relGet, targetDel, read_log, update_log, List.append_assoc, heard_append]; rfl

end Osp.Neighbor
