import Verif.Rdfp.Model
import Verif.Onto.Lemmas
/-!
# Bound namespaces over histories (C71, C72)
-/
namespace Osp.Rdfp
open Osp.Install

/-! ### Specification -/

/-- The name stands for the IRI. -/
def Binds.Named (b : Binds) (p i : Text) : Prop := (p, i) ∈ b.ns

/-- The calls of `bind` since the graph was created, with IRIs that are not empty. -/
inductive Binds.Reached : Binds → Prop where
  | new : Reached Binds.new
  | bind (b : Binds) (p i : Text) (override : Bool) : Reached b → i ≠ [] → Reached (b.bind p i override)

/-- The name under which an IRI becomes available when it is bound to the name `p`: `p`, unless that is the name of another IRI; then the first of `p1`, `p2`, … that is not the name
of another IRI (`default1`, … for the empty name). -/
def FreeName (b : Binds) (p i q : Text) : Prop :=
  ((∀ j, b.Named p j → j = i) ∧ q = p) ∨
  ((∃ j, b.Named p j ∧ j ≠ i) ∧ ∃ n, 1 ≤ n ∧ q = (if p = [] then "default".toList else p) ++ dec n ∧ (∀ j, b.Named q j → j = i) ∧
    ∀ k, 1 ≤ k → k < n → ∃ j, b.Named ((if p = [] then "default".toList else p) ++ dec k) j ∧ j ≠ i)

/-! ### the dictionaries -/

/-- What holds after every history. -/
structure Binds.Ok (b : Binds) : Prop where
  keys : (b.ns.map (·.1)).Nodup
  nonempty : ∀ p i, look b.ns p = some i → i ≠ []
  back : ∀ i p, look b.pf i = some p → look b.ns p = some i
  there : ∀ p i, look b.ns p = some i → ∃ q, look b.pf i = some q

theorem Binds.Ok.named {b : Binds} (h : b.Ok) {p i : Text} : b.Named p i ↔ look b.ns p = some i :=
  ⟨fun m => look_of_mem h.keys m, look_mem⟩

theorem Binds.Ok.at {b : Binds} (h : b.Ok) (p : Text) : b.at p = look b.ns p := by
  unfold Binds.at
  cases e : look b.ns p with
  | none => rfl
  | some i =>
    have := h.nonempty p i e
    cases i with
    | nil => exact absurd rfl this
    | cons c t => rfl

theorem Binds.Ok.store {b : Binds} (h : b.Ok) {p i : Text} (hi : i ≠ []) (hp : look b.ns p = none ∨ look b.ns p = some i) : (b.store p i).Ok := by
  refine ⟨put_nodup p i h.keys, ?_, ?_, ?_⟩
  · intro q j
    simp only [Binds.store, look_put]
    by_cases e : q = p
    · rw [if_pos e]; intro x; cases x; exact hi
    · rw [if_neg e]; exact h.nonempty q j
  · intro j q
    simp only [Binds.store, look_put]
    by_cases e : j = i
    · rw [if_pos e]; intro x; cases x; rw [if_pos rfl, e]
    · rw [if_neg e]
      intro x
      have := h.back j q x
      by_cases e2 : q = p
      · subst e2
        rw [this] at hp
        rcases hp with hp | hp
        · cases hp
        · cases hp; exact absurd rfl e
      · rw [if_neg e2]; exact this
  · intro q j
    simp only [Binds.store, look_put]
    by_cases e : q = p
    · rw [if_pos e]; intro x; cases x; exact ⟨p, by rw [if_pos rfl]⟩
    · rw [if_neg e]
      intro x
      by_cases e2 : j = i
      · exact ⟨p, by rw [if_pos e2]⟩
      · rw [if_neg e2]; exact h.there q j x

/-- What `bind` does to the names: the name `q` gets the IRI. -/
structure Bound1 (b b' : Binds) (q i : Text) : Prop where
  ok : b'.Ok
  free : look b.ns q = none ∨ look b.ns q = some i
  look : ∀ r, look b'.ns r = if r = q then some i else look b.ns r

theorem bound1_store {b : Binds} (h : b.Ok) {p i : Text} (hi : i ≠ []) (hp : look b.ns p = none ∨ look b.ns p = some i) : Bound1 b (b.store p i) p i :=
  ⟨h.store hi hp, hp, fun r => by simp only [Binds.store, look_put]⟩

theorem bound1_same {b : Binds} (h : b.Ok) {p i : Text} (hp : look b.ns p = some i) : Bound1 b b p i :=
  ⟨h, Or.inr hp, fun r => by by_cases e : r = p <;> simp [e, hp]⟩

theorem dec_append_inj {p : Text} {m n : Nat} (h : p ++ dec m = p ++ dec n) : m = n := dec_injective (List.append_cancel_left h)

/-- The loop finds a name. -/
theorem numbered_ok {b : Binds} (h : b.Ok) {p i : Text} (hi : i ≠ []) : ∀ (fuel n : Nat), 1 ≤ n → b.ns.length + 2 ≤ fuel + n →
    (∀ k, 1 ≤ k → k < n → ∃ j, look b.ns (p ++ dec k) = some j ∧ j ≠ i) →
    ∃ m, 1 ≤ m ∧ Bound1 b (b.numbered p i fuel n) (p ++ dec m) i ∧ ∀ k, 1 ≤ k → k < m → ∃ j, look b.ns (p ++ dec k) = some j ∧ j ≠ i
  | 0, n, h1, hf, hk => by
    exfalso
    have hnd : ((List.range (b.ns.length + 1)).map (fun k => p ++ dec (k + 1))).Nodup := by
      apply List.nodup_range.map
      intro x y e hxy
      exact e (by have := dec_append_inj hxy; omega)
    have hsub : ∀ x ∈ (List.range (b.ns.length + 1)).map (fun k => p ++ dec (k + 1)), x ∈ b.ns.map (·.1) := by
      intro x hx
      obtain ⟨k, hk1, rfl⟩ := List.mem_map.1 hx
      rw [List.mem_range] at hk1
      obtain ⟨j, hj, _⟩ := hk (k + 1) (by omega) (by omega)
      exact List.mem_map.2 ⟨_, look_mem hj, rfl⟩
    have := Osp.Onto.nodup_length_le _ _ hnd hsub
    rw [List.length_map, List.length_range, List.length_map] at this
    omega
  | fuel + 1, n, h1, hf, hk => by
    unfold Binds.numbered
    rw [h.at]
    cases e : look b.ns (p ++ dec n) with
    | none => exact ⟨n, h1, bound1_store h hi (Or.inl e), hk⟩
    | some j =>
      by_cases hj : j = i
      · subst hj
        simp only [if_true]
        exact ⟨n, h1, bound1_same h e, hk⟩
      · simp only [if_neg hj]
        apply numbered_ok h hi fuel (n + 1) (by omega) (by omega)
        intro k hk1 hk2
        by_cases hkn : k = n
        · subst hkn; exact ⟨j, e, hj⟩
        · exact hk k hk1 (by omega)

theorem plain_ok {b : Binds} (h : b.Ok) {p i : Text} (hi : i ≠ []) (hp : look b.ns p = none ∨ look b.ns p = some i) : Bound1 b (b.plain p i true) p i := by
  unfold Binds.plain
  cases e : look b.pf i with
  | none => exact bound1_store h hi hp
  | some q =>
    by_cases hq : q = p
    · subst hq
      simp only [if_true]
      exact bound1_same h (h.back _ _ e)
    · simp only [if_neg hq, Bool.true_or, if_true]
      exact bound1_store h hi hp

theorem plain_keeps {b : Binds} (h : b.Ok) {p i : Text} (hi : i ≠ []) (hp : look b.ns p = none ∨ look b.ns p = some i) (o : Bool) :
    Bound1 b (b.plain p i o) p i ∨ (b.plain p i o = b ∧ o = false) := by
  cases o with
  | true => exact Or.inl (plain_ok h hi hp)
  | false =>
    unfold Binds.plain
    cases e : look b.pf i with
    | none => exact Or.inl (bound1_store h hi hp)
    | some q =>
      by_cases hq : q = p
      · right; simp [hq]
      · simp only [if_neg hq, Bool.false_or]
        split
        · exact Or.inl (bound1_store h hi hp)
        · exact Or.inr ⟨rfl, trivial⟩

theorem numberedPrefix_eq (p : Text) : numberedPrefix p = if p = [] then "default".toList else p := by
  cases p <;> rfl

theorem bind_cases {b : Binds} (h : b.Ok) {p i : Text} (hi : i ≠ []) (o : Bool) :
    (∃ q, FreeName b p i q ∧ Bound1 b (b.bind p i o) q i) ∨ (b.bind p i o = b ∧ o = false) := by
  unfold Binds.bind
  rw [h.at]
  have plainCase : (look b.ns p = none ∨ look b.ns p = some i) → (∃ q, FreeName b p i q ∧ Bound1 b (b.plain p i o) q i) ∨ (b.plain p i o = b ∧ o = false) := by
    intro hp
    rcases plain_keeps h hi hp o with h1 | h1
    · refine Or.inl ⟨p, Or.inl ⟨?_, rfl⟩, h1⟩
      intro j hj
      rw [h.named] at hj
      rw [hj] at hp
      rcases hp with hp | hp
      · cases hp
      · cases hp; rfl
    · exact Or.inr h1
  cases e : look b.ns p with
  | none => exact plainCase (Or.inl e)
  | some j =>
    by_cases hj : j = i
    · subst hj
      simp only [if_true]
      exact plainCase (Or.inr e)
    · simp only [if_neg hj]
      obtain ⟨m, hm, h1, h2⟩ := numbered_ok (p := numberedPrefix p) h hi (b.ns.length + 1) 1 (by omega) (by omega) (fun k _ _ => by omega)
      refine Or.inl ⟨_, Or.inr ⟨⟨j, h.named.2 e, hj⟩, m, hm, by rw [numberedPrefix_eq], ?_, ?_⟩, h1⟩
      · intro j' hj'
        rw [h.named] at hj'
        rcases h1.free with x | x
        · rw [x] at hj'; cases hj'
        · rw [x] at hj'; cases hj'; rfl
      · intro k hk1 hk2
        obtain ⟨j', a, b'⟩ := h2 k hk1 hk2
        exact ⟨j', h.named.2 (by rw [← numberedPrefix_eq]; exact a), b'⟩

theorem bind_ok {b : Binds} (h : b.Ok) {p i : Text} (hi : i ≠ []) (o : Bool) : (b.bind p i o).Ok := by
  rcases bind_cases h hi o with ⟨q, _, h1⟩ | ⟨h1, _⟩
  · exact h1.ok
  · rw [h1]; exact h

theorem nil_ok : (Binds.mk [] []).Ok :=
  ⟨List.nodup_nil, fun _ _ h => (by cases h), fun _ _ h => (by cases h), fun _ _ h => (by cases h)⟩

theorem new_ok : Binds.new.Ok := by
  unfold Binds.new
  exact bind_ok (bind_ok (bind_ok (bind_ok nil_ok (by decide) _) (by decide) _) (by decide) _) (by decide) _

theorem Binds.Reached.ok {b : Binds} (h : b.Reached) : b.Ok := by
  induction h with
  | new => exact new_ok
  | bind b p i o _ hi ih => exact bind_ok ih hi o

/-! ### Theorems -/

/-- **C71.** The effect of `bind` on the names: exactly one name is affected, the IRI is available under it afterwards, and it is the given name unless another IRI has it. -/
theorem bind_exact {b : Binds} (h : b.Reached) (p i : Text) (hi : i ≠ []) :
    ∃ q, FreeName b p i q ∧ ∀ r j, (b.bind p i).Named r j ↔ b.Named r j ∨ (r = q ∧ j = i) := by
  have hok := h.ok
  rcases bind_cases hok hi true (p := p) with ⟨q, hq, h1⟩ | ⟨_, h1⟩
  · refine ⟨q, hq, fun r j => ?_⟩
    rw [h1.ok.named, hok.named, h1.look]
    by_cases e : r = q
    · subst e
      rw [if_pos rfl]
      constructor
      · intro x; cases x; exact Or.inr ⟨rfl, rfl⟩
      · rintro (x | ⟨_, rfl⟩)
        · rcases h1.free with y | y
          · rw [y] at x; cases x
          · rw [y] at x; exact x
        · rfl
    · rw [if_neg e]
      constructor
      · exact Or.inl
      · rintro (x | ⟨x, _⟩)
        · exact x
        · exact absurd x e
  · cases h1

/-- **C71.** The free name is determined. -/
theorem free_name_unique {b : Binds} {p i q q' : Text} (hq : FreeName b p i q) (hq' : FreeName b p i q') : q = q' := by
  rcases hq with ⟨a, rfl⟩ | ⟨⟨j, a, a'⟩, n, n1, rfl, b1, c1⟩ <;> rcases hq' with ⟨x, rfl⟩ | ⟨⟨y, x, x'⟩, m, m1, rfl, b2, c2⟩
  · rfl
  · exact absurd (a _ x) x'
  · exact absurd (x _ a) a'
  · rcases Nat.lt_trichotomy n m with l | l | l
    · obtain ⟨j', k1, k2⟩ := c2 n n1 l; exact absurd (b1 _ k1) k2
    · rw [l]
    · obtain ⟨j', k1, k2⟩ := c1 m m1 l; exact absurd (b2 _ k1) k2

/-- **C71.** A name keeps its IRI, whatever is bound later. -/
theorem names_keep_iri {b : Binds} (h : b.Reached) {p i : Text} (hp : b.Named p i) (q j : Text) (hj : j ≠ []) (o : Bool) : (b.bind q j o).Named p i := by
  have hok := h.ok
  rcases bind_cases hok hj o (p := q) with ⟨r, _, h1⟩ | ⟨h1, _⟩
  · rw [h1.ok.named, h1.look]
    rw [hok.named] at hp
    by_cases e : p = r
    · subst e
      rw [if_pos rfl]
      rcases h1.free with y | y
      · rw [y] at hp; cases hp
      · rw [y] at hp; exact hp
    · rw [if_neg e]; exact hp
  · rw [h1]; exact hp

/-- **C71.** A name has one IRI. -/
theorem name_unique {b : Binds} (h : b.Reached) {p i j : Text} (hi : b.Named p i) (hj : b.Named p j) : i = j := by
  rw [h.ok.named] at hi hj
  rw [hi] at hj; cases hj; rfl

end Osp.Rdfp
