import Verif.Search.Roots
/-!
# Deleting stops at the first exception (C60)
-/
namespace Osp.Search
open Osp.Cuds

/-- **C60.** If one of the objects cannot be deleted, its exception is the exception of the call, the objects before it are deleted and those after it are not touched. -/
theorem delete_stops (O : Onto) (u : Uid) (us : List Uid) (s' : Sess) (e : PyErr) : ∀ (pre : List Uid) (s s1 : Sess), deleteAll O pre s = ⟨.ok (), s1⟩ →
    delete O s1 u = ⟨.error e, s'⟩ → deleteAll O (pre ++ u :: us) s = ⟨.error e, s'⟩
  | [], s, s1, h, hd => by
    have : s = s1 := congrArg Out.st h
    subst this
    show deleteAll O (u :: us) s = _
    simp only [deleteAll, hd]
  | v :: pre, s, s1, h, hd => by
    show deleteAll O (v :: (pre ++ u :: us)) s = _
    simp only [deleteAll] at h ⊢
    rcases hv : delete O s v with ⟨r, s2⟩
    rw [hv] at h
    cases r with
    | error e' => simp at h
    | ok x => exact delete_stops O u us s' e pre s2 s1 h hd

end Osp.Search
