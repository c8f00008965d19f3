import Verif.Schema.Props
/-!
# C48: the exact result of the validation
-/
namespace Osp.Schema

/-! ## Specification -/

/-- Specification: the objects of the tree below an object in the order in which they are met, each before what is below it (objects with several parents
several times). For trees that are at most `n` deep (`Depth`) nothing is left out. -/
def preorder (W : World) : Nat → Nat → List Nat
  | 0, _ => []
  | n + 1, o => o :: (W.children o).flatMap (preorder W n)

/-- Specification: the object is met, and no object of its class is met later. -/
def LastOfClass (W : World) (L : List Nat) (x : Nat) : Prop := ∃ a b, L = a ++ x :: b ∧ ∀ y ∈ b, W.cls y ≠ W.cls x

/-! ## Lemmas -/

theorem keys_setKey_eq (k : Text) (v : List Nat) (g : Groups) (h : k ∈ g.map Prod.fst) : (setKey k v g).map Prod.fst = g.map Prod.fst := by
  induction g with
  | nil => cases h
  | cons y g ih =>
    unfold setKey
    split
    · rename_i hy; simp [hy]
    · rename_i hy
      rw [List.map_cons, List.map_cons, ih]
      rcases List.mem_cons.1 h with h | h
      · exact absurd h.symm hy
      · exact h

theorem keys_setKey_new (k : Text) (v : List Nat) (g : Groups) (h : k ∉ g.map Prod.fst) : setKey k v g = g ++ [(k, v)] := by
  induction g with
  | nil => rfl
  | cons y g ih =>
    simp only [List.map_cons, List.mem_cons, not_or] at h
    unfold setKey
    rw [if_neg (Ne.symm h.1), ih h.2, List.cons_append]

theorem setKey_keys_nodup {k : Text} {v : List Nat} {g : Groups} (h : (g.map Prod.fst).Nodup) : ((setKey k v g).map Prod.fst).Nodup := by
  by_cases hk : k ∈ g.map Prod.fst
  · rw [keys_setKey_eq k v g hk]; exact h
  · rw [keys_setKey_new k v g hk, List.map_append, List.nodup_append]
    refine ⟨h, by simp, ?_⟩
    intro a ha b hb
    simp only [List.map_cons, List.map_nil, List.mem_cons, List.not_mem_nil, or_false] at hb
    subst hb
    rintro rfl
    exact hk ha

theorem mem_setKey_iff {k : Text} {v : List Nat} {g : Groups} (h : (g.map Prod.fst).Nodup) (x : Text × List Nat) :
    x ∈ setKey k v g ↔ x = (k, v) ∨ x.1 ≠ k ∧ x ∈ g := by
  induction g with
  | nil => simp [setKey]
  | cons y g ih =>
    simp only [List.map_cons, List.nodup_cons] at h
    unfold setKey
    split
    · rename_i hy
      subst hy
      rw [List.mem_cons]
      refine or_congr Iff.rfl ⟨fun hx => ⟨?_, List.mem_cons_of_mem _ hx⟩, ?_⟩
      · rintro he; exact h.1 (List.mem_map.2 ⟨x, hx, he⟩)
      · rintro ⟨h1, h2⟩
        rcases List.mem_cons.1 h2 with rfl | h2
        · exact absurd rfl h1
        · exact h2
    · rename_i hy
      rw [List.mem_cons, ih h.2, List.mem_cons]
      constructor
      · rintro (rfl | h1 | ⟨h1, h2⟩)
        · exact Or.inr ⟨hy, Or.inl rfl⟩
        · exact Or.inl h1
        · exact Or.inr ⟨h1, Or.inr h2⟩
      · rintro (h1 | ⟨h1, rfl | h2⟩)
        · exact Or.inr (Or.inl h1)
        · exact Or.inl rfl
        · exact Or.inr (Or.inr ⟨h1, h2⟩)

theorem lastOfClass_snoc {W : World} {L : List Nat} {c x : Nat} :
    LastOfClass W (L ++ [c]) x ↔ x = c ∨ W.cls x ≠ W.cls c ∧ LastOfClass W L x := by
  constructor
  · rintro ⟨a, b, h, hb⟩
    rcases List.eq_nil_or_concat b with rfl | ⟨b, d, rfl⟩
    · have := List.append_inj_right' h rfl
      exact Or.inl (by simpa using this.symm)
    · rw [List.concat_eq_append] at h hb
      rw [← List.cons_append, ← List.append_assoc] at h
      obtain ⟨h1, h2⟩ := List.append_inj' h rfl
      have h2' : c = d := by simpa using h2
      subst h2'
      exact Or.inr ⟨fun he => hb c (by simp) he.symm, a, b, h1, fun y hy => hb y (by simp [hy])⟩
  · rintro (rfl | ⟨h, a, b, rfl, hb⟩)
    · exact ⟨L, [], rfl, by simp⟩
    · refine ⟨a, b ++ [c], by simp, fun y hy => ?_⟩
      rcases List.mem_append.1 hy with hy | hy
      · exact hb y hy
      · simp only [List.mem_cons, List.not_mem_nil, or_false] at hy
        subst hy; exact Ne.symm h

theorem snoc_induction {P : List Nat → Prop} (h0 : P []) (h1 : ∀ L c, P L → P (L ++ [c])) (L : List Nat) : P L := by
  have : ∀ M : List Nat, P M.reverse := by
    intro M
    induction M with
    | nil => exact h0
    | cons c M ih => rw [List.reverse_cons]; exact h1 _ _ ih
  rw [← List.reverse_reverse L]
  exact this _

/-- The groups: the last object of every class. -/
theorem fold_record (W : World) (L : List Nat) :
    ((L.foldl (fun g c => record W c g) []).map Prod.fst).Nodup ∧
    ∀ k l, (k, l) ∈ L.foldl (fun g c => record W c g) [] ↔ ∃ x, LastOfClass W L x ∧ k = W.cls x ∧ l = [x] := by
  induction L using snoc_induction with
  | h0 => exact ⟨by simp, fun k l => ⟨(by simp), fun ⟨x, ⟨a, b, h, _⟩, _⟩ => by cases a <;> simp at h⟩⟩
  | h1 L c ih =>
    rw [List.foldl_append, List.foldl_cons, List.foldl_nil]
    have hr : ∀ g, record W c g = setKey (W.cls c) [c] g := fun g => rfl
    rw [hr]
    refine ⟨setKey_keys_nodup ih.1, fun k l => ?_⟩
    rw [mem_setKey_iff ih.1, ih.2]
    constructor
    · rintro (h | ⟨h1, x, h2, rfl, rfl⟩)
      · cases h; exact ⟨c, lastOfClass_snoc.2 (Or.inl rfl), rfl, rfl⟩
      · exact ⟨x, lastOfClass_snoc.2 (Or.inr ⟨h1, h2⟩), rfl, rfl⟩
    · rintro ⟨x, h, rfl, rfl⟩
      rcases lastOfClass_snoc.1 h with rfl | ⟨h1, h2⟩
      · exact Or.inl rfl
      · exact Or.inr ⟨h1, x, h2, rfl, rfl⟩

theorem traverse_fold {W : World} (n : Nat) : ∀ (o : Nat) (g : Groups), Depth W n o →
    traverse W n o g = .ok (((preorder W n o).tail).foldl (fun g c => record W c g) g) := by
  induction n with
  | zero => intro o g h; exact absurd h id
  | succ n ih =>
    intro o g hd
    have hne : ∀ c, Depth W n c → ∃ t, preorder W n c = c :: t := by
      intro c hc
      cases n with
      | zero => exact absurd hc id
      | succ n => exact ⟨_, rfl⟩
    have loop : ∀ (cs : List Nat) (g : Groups), (∀ c ∈ cs, Depth W n c) →
        Schema.loop W (traverse W n) cs g = .ok ((cs.flatMap (preorder W n)).foldl (fun g c => record W c g) g) := by
      intro cs
      induction cs with
      | nil => intro g _; rfl
      | cons c cs ihc =>
        intro g h
        obtain ⟨t, ht⟩ := hne c (h c (by simp))
        have := ih c (record W c g) (h c (by simp))
        rw [ht] at this
        simp only [Schema.loop, this]
        rw [ihc _ (fun c hc => h c (List.mem_cons_of_mem _ hc)), List.flatMap_cons, ht, List.foldl_append, List.foldl_cons]
        rfl
    rw [traverse, loop _ _ hd]
    rfl

theorem groups_fold {W : World} {n root : Nat} (hd : Depth W n root) : groups W n root = .ok ((preorder W n root).foldl (fun g c => record W c g) []) := by
  unfold groups
  rw [traverse_fold n root _ hd]
  cases n with
  | zero => exact absurd hd id
  | succ n => rfl

/-! ## Theorem -/

/-- **C48.** The exact result for every finite tree: `ConsistencyError` if the schema is contradictory or an object of a required class is missing; otherwise
the tree is accepted exactly if for every class the object that is met last satisfies the constraints, and `CardinalityError` is raised if one does not. -/
theorem validation_exact (W : World) (hc : ∀ o r d, ∃ n, W.count o r d = .ok n) (S : Doc) (hS : S.Keys) (root fuel : Nat) (hd : Depth W fuel root) :
    (Contradictory S ∨ Incomplete W S root → validate W fuel S.yaml root = .error .consistencyError) ∧
    (¬ Contradictory S → ¬ Incomplete W S root → (∀ x, LastOfClass W (preorder W fuel root) x → Conforms W S x) → validate W fuel S.yaml root = .ok ()) ∧
    (¬ Contradictory S → ¬ Incomplete W S root → (∃ x, LastOfClass W (preorder W fuel root) x ∧ ¬ Conforms W S x) →
      validate W fuel S.yaml root = .error .cardinalityError) := by
  refine ⟨(consistency_error_exact W hc S hS root fuel hd).2, ?_, ?_⟩
  all_goals
    intro h1 h2 h3
    obtain ⟨om, e, m1, m2⟩ := (optionalMandatory_ok S).2 h1
    obtain ⟨g, eg, k1, k2⟩ := groups_ok hd
    have hp := presence_doc m1 m2 k1 k2
    simp only [validate, e, eg, (presence_ok om g S.yaml).2 (fun h => h2 (hp.1 h))]
    have hck := checkGroups_ok hc hS g (fun k l h o ho => ((k1 k l h).2 o ho).1)
    rw [groups_fold hd, Except.ok.injEq] at eg
    have hm := (fold_record W (preorder W fuel root)).2
    rw [eg] at hm
  · refine hck.1 fun k l hkl o ho => ?_
    obtain ⟨x, hx, _, rfl⟩ := (hm k l).1 hkl
    simp only [List.mem_cons, List.not_mem_nil, or_false] at ho
    exact ho ▸ h3 x hx
  · obtain ⟨x, hx, hn⟩ := h3
    exact hck.2 fun h => hn (h _ _ ((hm _ _).2 ⟨x, hx, rfl, rfl⟩) x (by simp))

/-- The hypotheses hold in the example of `earlier_violation_missed`, whose city 1 violates the constraints and is not the last one. -/
example : Depth W1 10 0 ∧ (∀ o r d, ∃ n, W1.count o r d = .ok n) ∧ preorder W1 10 0 = [0, 1, 2, 3] ∧ LastOfClass W1 (preorder W1 10 0) 2 ∧
    ¬ LastOfClass W1 (preorder W1 10 0) 1 := by
  have hp : preorder W1 10 0 = [0, 1, 2, 3] := by decide +kernel
  have hd : ∀ n, 3 ≤ n → Depth W1 n 0 := by
    intro n hn
    obtain ⟨m, rfl⟩ : ∃ m, n = m + 3 := ⟨n - 3, by omega⟩
    intro c hc
    have hc' : c = 1 ∨ c = 2 := by simpa [W1] using hc
    intro d hd'
    rcases hc' with rfl | rfl
    · simp [W1] at hd'
    · have : d = 3 := by simpa [W1] using hd'
      subst this
      intro e he
      simp [W1] at he
  refine ⟨hd 10 (by omega), fun o r d => ⟨_, rfl⟩, hp, ?_, ?_⟩
  · rw [hp]; exact ⟨[0, 1], [3], rfl, by decide +kernel⟩
  · rw [hp]
    rintro ⟨a, b, h, hb⟩
    have h2 : 2 ∈ b := by
      match a, h with
      | [], h => simp at h
      | [x], h => simp at h; rw [← h.2]; simp
      | [x, y], h => simp at h
      | [x, y, z], h => simp at h
      | x :: y :: z :: w :: a, h => simp at h
    exact hb 2 h2 (by decide +kernel)

end Osp.Schema
