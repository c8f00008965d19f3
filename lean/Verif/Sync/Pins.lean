import Verif.Sync.Witness
/-!
# Loading before there is a root (C58)
-/
namespace Osp.Sync
open Osp.Sess

/-- **C58.** Loading an object in a session without root is a RuntimeError; nothing is sent and nothing changes. -/
theorem load_without_root (P : Params) (net : Net) (fetch : List Uid → St → Res (List (Option Uid))) (u : Uid) (c t : St) (h : c.root = none) : load1 P net fetch u c t = ⟨.error .runtimeError, c, t⟩ := by
  unfold load1
  rw [if_pos h]

/-- **C58.** If a request does not arrive, the client raises and neither side changes; if only the answer is lost, the client raises and is unchanged, but the server has executed the request;
if the server answers with an exception, the client raises a RuntimeError and is unchanged. -/
theorem request_lost (m : Msg) (cmd : St → Res (List (Option Uid))) (c t : St) :
    request .noRequest m cmd c t = ⟨.error .connectionClosed, c, t⟩ ∧
    request .noResponse m cmd c t = ⟨.error .connectionClosed, c, (serve cmd m t).2⟩ ∧
    (∀ net, net ≠ .noRequest → net ≠ .noResponse → (serve cmd m t).1 = none → request net m cmd c t = ⟨.error .runtimeError, c, (serve cmd m t).2⟩) := by
  refine ⟨rfl, rfl, fun net h1 h2 h3 => ?_⟩
  unfold request
  rw [if_neg h1]
  dsimp only
  rw [if_neg h2, h3]

/-- **C58.** Reading an object never leaves the server with anything but what the server had or what serving the request made of it: an object that is not expired is read without asking. -/
theorem read_fresh (P : Params) (net : Net) (fetch : List Uid → St → Res (List (Option Uid))) (u : Uid) (c t : St) (h : u ∉ c.expired) : read P net fetch u c t = ⟨.ok [some u], c, t⟩ := by
  unfold read
  rw [if_neg h]

end Osp.Sync
