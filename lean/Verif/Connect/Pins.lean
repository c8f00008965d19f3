import Verif.Connect.Model
/-!
# Parsing of URIs: the parts of `urllib.parse` (C54)
-/
namespace Osp.Connect
open Osp.Server

/-- **C54.** The characters a scheme may have: letters, digits, plus, minus and dot, as in RFC 3986. -/
theorem schemeChar_exact (c : Char) : schemeChar c = true ↔ c.isAlphanum = true ∨ c ∈ "+-.".toList := by
  simp [schemeChar, or_assoc]

/-- **C54.** A URI is refused exactly if its network location has only one kind of bracket, and then with a ValueError. -/
theorem urlparse_refused (t : Text) (e : PyErr) : urlparse t = .error e ↔ e = .valueError ∧ ¬ ('[' ∈ (splitNetloc (splitScheme t).2).1 ↔ ']' ∈ (splitNetloc (splitScheme t).2).1) := by
  have hb : brackets (splitNetloc (splitScheme t).2).1 = true ↔ ¬ ('[' ∈ (splitNetloc (splitScheme t).2).1 ↔ ']' ∈ (splitNetloc (splitScheme t).2).1) := by
    unfold brackets
    rw [bne_iff_ne, Ne, Bool.eq_iff_iff, List.contains_iff_mem, List.contains_iff_mem]
  unfold urlparse
  dsimp only
  by_cases h : brackets (splitNetloc (splitScheme t).2).1 = true
  · rw [if_pos h]
    constructor
    · intro k; cases k; exact ⟨rfl, hb.1 h⟩
    · rintro ⟨rfl, -⟩; rfl
  · rw [if_neg h]
    constructor
    · intro k; cases k
    · rintro ⟨-, k⟩; exact absurd (hb.2 k) h

/-- **C54.** `ws` and `wss` URIs are written with `//` even if the network location is empty, others are not. -/
theorem usesNetloc_exact (s : Text) : usesNetloc s = true ↔ s ∈ ["ws".toList, "wss".toList] := by
  simp [usesNetloc]

example : urlparse "ws://[a/b".toList = .error .valueError := by decide +kernel
example : urlunparse ⟨"wss".toList, [], "x".toList, [], []⟩ = "wss:///x".toList := by decide +kernel

end Osp.Connect
