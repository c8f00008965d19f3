/-! # Specification of graph searches: paths -/
namespace Osp.Search

/-- `Path succ S a b n`: a walk of `n` steps from `a` to `b` all of whose nodes after `a` avoid `S`. -/
inductive Path {α : Type} (succ : α → List α) (S : α → Prop) : α → α → Nat → Prop
  | refl (a) : Path succ S a a 0
  | step {a b c n} : Path succ S a b n → c ∈ succ b → ¬ S c → Path succ S a c (n + 1)

/-- `b` is reachable from `a` by a walk avoiding `S`. -/
def ReachAvoid {α : Type} (succ : α → List α) (S : α → Prop) (a b : α) : Prop := ∃ n, Path succ S a b n

/-- `b` is reachable from `a`. -/
def Reach {α : Type} (succ : α → List α) (a b : α) : Prop := ReachAvoid succ (fun _ => False) a b

/-- `b` can be reached from `a` in at most `d` steps. -/
def Within {α : Type} (succ : α → List α) (a : α) (d : Nat) (b : α) : Prop := ∃ n ≤ d, Path succ (fun _ => False) a b n

end Osp.Search
