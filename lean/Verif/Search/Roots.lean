import Verif.Search.Props
/-!
# Pruning the registry from several roots (C22)
-/
namespace Osp.Search
open Osp.Cuds

/-- `Registry.prune`, registry.py:87-102: the elements not reachable from the roots are taken out of the registry and returned; the graph is left alone. -/
def registryPrune (O : Onto) (s : Sess) (fuel : Nat) (rel : Option Rel) (roots : List Uid) : Option (List Uid × Sess) :=
  (getNotReachable (children O s rel) fuel s.reg roots).map fun del => (del, { s with reg := s.reg.filter (· ∉ del) })

/-- A path from `a` that may not enter the closed set `S` reaches everything that a free path reaches, except what is in `S`. -/
theorem avoid_or {O : Onto} {s : Sess} {rel : Option Rel} {S : List Uid} (hS : ∀ x ∈ S, ∀ y, Linked O s rel x y → y ∈ S) {a b : Uid} (h : Reaches O s rel a b) :
    b ∈ S ∨ ReachesAvoiding O s rel S a b := by
  induction h with
  | refl => exact Or.inr .refl
  | @tail y z _ h2 ih =>
    rcases ih with ih | ih
    · exact Or.inl (hS _ ih _ h2)
    · by_cases hz : z ∈ S
      · exact Or.inl hz
      · exact Or.inr (ih.tail ⟨h2, hz⟩)

theorem reaches_of_avoiding {O : Onto} {s : Sess} {rel : Option Rel} {S : List Uid} {a b : Uid} (h : ReachesAvoiding O s rel S a b) : Reaches O s rel a b := by
  induction h with
  | refl => exact .refl
  | tail _ h2 ih => exact ih.tail h2.1

theorem reachableLoop_exact {O : Onto} (hW : O.WF) {s : Sess} (hs : Reachable O s) (rel : Option Rel) (fuel : Nat) (hf : s.reg.length + 1 ≤ fuel) (roots : List Uid)
    (hr : ∀ r ∈ roots, r ∈ s.reg) (acc : List Uid) (hacc : ∀ x ∈ acc, ∀ y, Linked O s rel x y → y ∈ acc) :
    ∃ T, reachableLoop (children O s rel) fuel roots acc = some T ∧ ∀ x, x ∈ T ↔ x ∈ acc ∨ ∃ r ∈ roots, Reaches O s rel r x := by
  induction roots generalizing acc with
  | nil => exact ⟨acc, rfl, fun x => by simp⟩
  | cons r rs ih =>
    obtain ⟨T, hT, hm⟩ := get_subtree_exact hW hs rel r (hr r (by simp)) acc fuel hf
    have hall : ∀ x, x ∈ acc ++ T ↔ x ∈ acc ∨ Reaches O s rel r x := fun x => by
      rw [List.mem_append, hm]
      exact ⟨fun h => h.imp id reaches_of_avoiding, fun h => h.elim Or.inl (fun h => avoid_or hacc h)⟩
    obtain ⟨T', hT', hm'⟩ := ih (fun x hx => hr x (by simp [hx])) (acc ++ T) (fun x hx y hy => by
      rw [hall] at hx ⊢
      exact hx.imp (fun h => hacc x h y hy) (fun h => h.tail hy))
    refine ⟨T', by simp only [reachableLoop, hT, hT'], fun x => ?_⟩
    rw [hm', hall]
    simp only [List.mem_cons, exists_eq_or_imp, or_assoc]

/-- **C22.** Pruning the registry from any number of roots over `rel`: what is removed (and returned) are exactly the registered objects no root reaches, each once; what stays
registered are exactly the others; the graph is not touched. -/
theorem registry_prune_exact {O : Onto} (hW : O.WF) {s : Sess} (hs : Reachable O s) (hn : s.reg.Nodup) (rel : Option Rel) (roots : List Uid) (hr : ∀ r ∈ roots, r ∈ s.reg) (fuel : Nat)
    (hf : s.reg.length + 1 ≤ fuel) : ∃ del s', registryPrune O s fuel rel roots = some (del, s') ∧ del.Nodup ∧ s'.g = s.g ∧ s'.root = s.root ∧
      (∀ u, u ∈ del ↔ u ∈ s.reg ∧ ¬ ∃ r ∈ roots, Reaches O s rel r u) ∧ (∀ u, u ∈ s'.reg ↔ u ∈ s.reg ∧ ∃ r ∈ roots, Reaches O s rel r u) := by
  obtain ⟨T, hT, hm⟩ := reachableLoop_exact hW hs rel fuel hf roots hr [] (by simp)
  refine ⟨s.reg.filter (· ∉ T), { s with reg := s.reg.filter (· ∉ s.reg.filter (· ∉ T)) }, ?_, hn.filter _, rfl, rfl, fun u => ?_, fun u => ?_⟩
  · simp only [registryPrune, getNotReachable, hT, Option.map]
  · simp [List.mem_filter, hm]
  · simp only [List.mem_filter, decide_eq_true_eq, hm, List.not_mem_nil, false_or, not_and, Classical.not_not]
    exact ⟨fun ⟨a, b⟩ => ⟨a, b a⟩, fun ⟨a, b⟩ => ⟨a, fun _ => b⟩⟩

/-- Four objects, 1 → 2 and 3 → 4 by an active relationship: pruning from 1 and 3 along it removes nothing, pruning from 2 and 3 removes 1 but leaves the triples of 1 in the graph. -/
theorem ex_registry_prune :
    let s := (run exOnto {} [.create 1 5 [], .create 2 5 [], .create 3 5 [], .create 4 5 [], .add 1 [2] (some 1) none, .add 3 [4] (some 1) none]).2
    (registryPrune exOnto s 10 (some 1) [1, 3]).map (·.1) = some [] ∧ (registryPrune exOnto s 10 (some 1) [2, 3]).map (·.1) = some [1] ∧
    (registryPrune exOnto s 10 (some 1) [2, 3]).map (fun x => decide ((⟨1, .type, .cls 5⟩ : Triple) ∈ x.2.g)) = some true := by
  refine ⟨?_, ?_, ?_⟩ <;> decide

end Osp.Search
