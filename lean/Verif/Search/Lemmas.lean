import Verif.Search.Model
import Verif.Search.Spec
import Verif.Cuds.Sim
/-! Lemmas about depth first search. -/
namespace Osp.Search
open Osp.Cuds

section
variable {succ : Uid → List Uid}

theorem Path.mono {S S' : Uid → Prop} {a b : Uid} {n : Nat} (h : Path succ S a b n) (hS : ∀ x, S' x → S x) : Path succ S' a b n := by
  induction h with
  | refl => exact .refl _
  | step _ h1 h2 ih => exact .step ih h1 (fun h => h2 (hS _ h))

/-- Prepend a step. -/
theorem Path.head {S : Uid → Prop} {a b c : Uid} {n : Nat} (hab : b ∈ succ a) (hb : ¬ S b) (h : Path succ S b c n) : Path succ S a c (n + 1) := by
  induction h with
  | refl => exact .step (.refl _) hab hb
  | step _ h1 h2 ih => exact .step ih h1 h2

theorem Path.trans {S : Uid → Prop} {a b c : Uid} {n m : Nat} (h1 : Path succ S a b n) (h2 : Path succ S b c m) : Path succ S a c (n + m) := by
  induction h2 with
  | refl => exact h1
  | step _ h3 h4 ih => exact .step ih h3 h4

/-- Nodes of the universe not in `S`. -/
def left (U S : List Uid) : Nat := (U.filter (· ∉ S)).length

theorem left_mono {U S S' : List Uid} (h : ∀ x ∈ S, x ∈ S') : left U S' ≤ left U S := by
  unfold left
  induction U with
  | nil => simp
  | cons u U ih =>
    simp only [List.filter_cons]
    by_cases h1 : u ∈ S'
    · simp only [h1, not_true_eq_false, decide_false, Bool.false_eq_true, ↓reduceIte]
      split <;> (try simp only [List.length_cons]) <;> omega
    · have h2 : u ∉ S := fun hh => h1 (h u hh)
      simp [h1, h2]
      simpa using ih

theorem left_lt {U S S' : List Uid} (h : ∀ x ∈ S, x ∈ S') {u : Uid} (hu : u ∈ U) (h1 : u ∉ S) (h2 : u ∈ S') : left U S' < left U S := by
  unfold left
  induction U with
  | nil => cases hu
  | cons v U ih =>
    have hm := left_mono (U := U) h
    unfold left at hm
    simp only [List.filter_cons]
    by_cases hv : v = u
    · subst hv
      simp only [h2, not_true_eq_false, decide_false, Bool.false_eq_true, ↓reduceIte, h1, not_false_eq_true, decide_true, List.length_cons]
      omega
    · have := ih ((List.mem_cons.1 hu).resolve_left (fun e => hv e.symm))
      by_cases h3 : v ∈ S'
      · simp only [h3, not_true_eq_false, decide_false, Bool.false_eq_true, ↓reduceIte]
        split <;> (try simp only [List.length_cons]) <;> omega
      · have h4 : v ∉ S := fun hh => h3 (h v hh)
        simp only [h3, h4, not_false_eq_true, decide_true, ↓reduceIte, List.length_cons]
        omega

/-! ### get_subtree -/

/-- What one call of `get_subtree` guarantees. -/
structure SubtreeOk (succ : Uid → List Uid) (root : Uid) (S T : List Uid) : Prop where
  root_mem : root ∈ T
  sound : ∀ x ∈ T, ReachAvoid succ (· ∈ S) root x
  closed : ∀ x ∈ T, ∀ y ∈ succ x, y ∈ S ∨ y ∈ T

theorem subtreeLoop_ok (rec : Uid → List Uid → Option (List Uid)) (root : Uid) (S : List Uid)
    (hrec : ∀ c S' T, rec c S' = some T → SubtreeOk succ c S' T)
    (cs sub T : List Uid) (hcs : ∀ c ∈ cs, c ∈ succ root)
    (hr : root ∈ sub) (hs : ∀ x ∈ sub, ReachAvoid succ (· ∈ S) root x)
    (hc : ∀ x ∈ sub, x ≠ root → ∀ y ∈ succ x, y ∈ S ∨ y ∈ sub)
    (hroot : ∀ y ∈ succ root, y ∈ S ∨ y ∈ sub ∨ y ∈ cs)
    (h : subtreeLoop rec S cs sub = some T) : SubtreeOk succ root S T := by
  induction cs generalizing sub with
  | nil =>
    simp only [subtreeLoop, Option.some.injEq] at h
    subst h
    refine ⟨hr, hs, ?_⟩
    intro x hx y hy
    by_cases hxr : x = root
    · subst hxr
      rcases hroot y hy with h | h | h
      · exact Or.inl h
      · exact Or.inr h
      · cases h
    · exact hc x hx hxr y hy
  | cons c cs ih =>
    unfold subtreeLoop at h
    split at h
    · rename_i hmem
      refine ih sub (fun c' hc' => hcs c' (by simp [hc'])) hr hs hc ?_ h
      intro y hy
      rcases hroot y hy with h | h | h
      · exact Or.inl h
      · exact Or.inr (Or.inl h)
      · rcases List.mem_cons.1 h with rfl | h
        · rcases hmem with hm | hm
          · exact Or.inl hm
          · exact Or.inr (Or.inl hm)
        · exact Or.inr (Or.inr h)
    · rename_i hmem
      split at h
      · cases h
      · rename_i t ht
        have hk := hrec _ _ _ ht
        refine ih (sub ++ t) (fun c' hc' => hcs c' (by simp [hc'])) (by simp [hr]) ?_ ?_ ?_ h
        · intro x hx
          rcases List.mem_append.1 hx with hx | hx
          · exact hs x hx
          · obtain ⟨n, hp⟩ := hk.sound x hx
            refine ⟨n + 1, Path.head (hcs c (by simp)) (fun hcS => hmem (Or.inl hcS)) (hp.mono ?_)⟩
            intro z hz; simp [hz]
        · intro x hx hxr y hy
          rcases List.mem_append.1 hx with hx | hx
          · rcases hc x hx hxr y hy with h | h
            · exact Or.inl h
            · exact Or.inr (by simp [h])
          · rcases hk.closed x hx y hy with h | h
            · rcases List.mem_append.1 h with h | h
              · exact Or.inl h
              · exact Or.inr (by simp [h])
            · exact Or.inr (by simp [h])
        · intro y hy
          rcases hroot y hy with h | h | h
          · exact Or.inl h
          · exact Or.inr (Or.inl (by simp [h]))
          · rcases List.mem_cons.1 h with rfl | h
            · exact Or.inr (Or.inl (by simp [hk.root_mem]))
            · exact Or.inr (Or.inr h)

theorem getSubtree_ok (fuel : Nat) (root : Uid) (S T : List Uid) (h : getSubtree succ fuel root S = some T) : SubtreeOk succ root S T := by
  induction fuel generalizing root S T with
  | zero => cases h
  | succ fuel ih =>
    refine subtreeLoop_ok (getSubtree succ fuel) root S (fun c S' T' hT => ih c S' T' hT) (succ root) [root] T (fun _ h => h) (by simp) ?_ ?_ ?_ h
    · intro x hx; simp only [List.mem_singleton] at hx; subst hx; exact ⟨0, .refl _⟩
    · intro x hx hne; simp only [List.mem_singleton] at hx; exact absurd hx hne
    · intro y hy; exact Or.inr (Or.inr hy)

/-- Closure and soundness determine the result. -/
theorem SubtreeOk.mem_iff {root : Uid} {S T : List Uid} (h : SubtreeOk succ root S T) (x : Uid) : x ∈ T ↔ ReachAvoid succ (· ∈ S) root x := by
  refine ⟨h.sound x, ?_⟩
  rintro ⟨n, hp⟩
  induction hp with
  | refl => exact h.root_mem
  | step _ h1 h2 ih => exact (h.closed _ ih _ h1).resolve_left h2

theorem subtreeLoop_some (rec : Uid → List Uid → Option (List Uid)) (S : List Uid) (cs sub : List Uid)
    (hrec : ∀ c S', c ∈ cs → c ∉ S' → (∀ x ∈ S ++ sub, x ∈ S') → ∃ T, rec c S' = some T) :
    ∃ T, subtreeLoop rec S cs sub = some T := by
  induction cs generalizing sub with
  | nil => exact ⟨_, rfl⟩
  | cons c cs ih =>
    unfold subtreeLoop
    split
    · exact ih sub (fun c' S' h1 h2 h3 => hrec c' S' (by simp [h1]) h2 h3)
    · rename_i hmem
      obtain ⟨t, ht⟩ := hrec c (S ++ sub) (by simp) (by simpa using hmem) (fun _ h => h)
      rw [ht]
      exact ih (sub ++ t) (fun c' S' h1 h2 h3 => hrec c' S' (by simp [h1]) h2 (fun x hx => h3 x (by
        rcases List.mem_append.1 hx with h | h
        · simp [h]
        · simp [h])))

theorem getSubtree_some (U : List Uid) (hU : ∀ x ∈ U, ∀ y ∈ succ x, y ∈ U) (fuel : Nat) (root : Uid) (S : List Uid) (hroot : root ∈ U)
    (hf : left U (root :: S) + 1 ≤ fuel) : ∃ T, getSubtree succ fuel root S = some T := by
  induction fuel generalizing root S with
  | zero => omega
  | succ fuel ih =>
    apply subtreeLoop_some
    intro c S' hc hcS hS
    apply ih c S' (hU _ hroot _ hc)
    have h1 : left U (c :: S') < left U S' := left_lt (fun x hx => by simp [hx]) (hU _ hroot _ hc) hcS (by simp)
    have h2 : left U S' ≤ left U (root :: S) := left_mono (fun x hx => hS x (by
      rcases List.mem_cons.1 hx with rfl | hx
      · simp
      · simp [hx]))
    omega

/-! ### find_cuds_object -/

/-- What one call of `find_cuds_object` (all matches) guarantees; `lim x` tells that the depth limit does not stop expansion at `x`. -/
structure FindOk (succ : Uid → List Uid) (crit : Uid → Bool) (lim : Uid → Prop) (root : Uid) (V out V' : List Uid) : Prop where
  sub : ∀ x ∈ V, x ∈ V'
  root_mem : root ∈ V'
  sound : ∀ x ∈ V', x ∈ V ∨ Reach succ root x
  closed : ∀ x ∈ V', x ∉ V → lim x → ∀ y ∈ succ x, y ∈ V'
  out_mem : ∀ x, x ∈ out ↔ x ∈ V' ∧ x ∉ V ∧ crit x = true
  out_nodup : out.Nodup

theorem findLoop_ok {crit : Uid → Bool} {lim : Uid → Prop} (rec : Uid → List Uid → Option (List Uid × List Uid)) (root : Uid) (V0 : List Uid)
    (cs V out out' V' : List Uid)
    (hrec : ∀ c W o W', c ∈ cs → c ∉ W → rec c W = some (o, W') → FindOk succ crit lim c W o W')
    (hcs : ∀ c ∈ cs, c ∈ succ root)
    (hsub : ∀ x ∈ V0, x ∈ V) (hr : root ∈ V) (hs : ∀ x ∈ V, x ∈ V0 ∨ Reach succ root x)
    (hc : ∀ x ∈ V, x ∉ V0 → x ≠ root → lim x → ∀ y ∈ succ x, y ∈ V)
    (hroot : ∀ y ∈ succ root, y ∈ V ∨ y ∈ cs)
    (ho : ∀ x, x ∈ out ↔ x ∈ V ∧ x ∉ V0 ∧ crit x = true) (hn : out.Nodup)
    (h : findLoop rec cs V out = some (out', V')) : FindOk succ crit lim root V0 out' V' := by
  induction cs generalizing V out with
  | nil =>
    simp only [findLoop, Option.some.injEq, Prod.mk.injEq] at h
    obtain ⟨rfl, rfl⟩ := h
    refine ⟨hsub, hr, hs, ?_, ho, hn⟩
    intro x hx hx0 hlx y hy
    by_cases hxr : x = root
    · subst hxr
      rcases hroot y hy with h | h
      · exact h
      · cases h
    · exact hc x hx hx0 hxr hlx y hy
  | cons c cs ih =>
    unfold findLoop at h
    split at h
    · rename_i hmem
      refine ih V out (fun c' W o W' hc' => hrec c' W o W' (by simp [hc'])) (fun c' hc' => hcs c' (by simp [hc'])) hsub hr hs hc ?_ ho hn h
      intro y hy
      rcases hroot y hy with h | h
      · exact Or.inl h
      · rcases List.mem_cons.1 h with rfl | h
        · exact Or.inl hmem
        · exact Or.inr h
    · rename_i hmem
      split at h
      · cases h
      · rename_i res V1 hres
        have hk := hrec c V res V1 (by simp) hmem hres
        refine ih V1 (out ++ res) (fun c' W o W' hc' => hrec c' W o W' (by simp [hc'])) (fun c' hc' => hcs c' (by simp [hc']))
          (fun x hx => hk.sub x (hsub x hx)) (hk.sub _ hr) ?_ ?_ ?_ ?_ ?_ h
        · intro x hx
          rcases hk.sound x hx with h | ⟨n, hp⟩
          · exact hs x h
          · exact Or.inr ⟨n + 1, Path.head (hcs c (by simp)) (by simp) hp⟩
        · intro x hx hx0 hxr hlx y hy
          by_cases hxV : x ∈ V
          · exact hk.sub _ (hc x hxV hx0 hxr hlx y hy)
          · exact hk.closed x hx hxV hlx y hy
        · intro y hy
          rcases hroot y hy with h | h
          · exact Or.inl (hk.sub _ h)
          · rcases List.mem_cons.1 h with rfl | h
            · exact Or.inl hk.root_mem
            · exact Or.inr h
        · intro x
          rw [List.mem_append, ho, hk.out_mem]
          constructor
          · rintro (⟨a, b, c⟩ | ⟨a, b, c⟩)
            · exact ⟨hk.sub _ a, b, c⟩
            · exact ⟨a, fun hx0 => b (hsub _ hx0), c⟩
          · rintro ⟨a, b, c⟩
            by_cases hxV : x ∈ V
            · exact Or.inl ⟨hxV, b, c⟩
            · exact Or.inr ⟨a, hxV, c⟩
        · rw [List.nodup_append]
          refine ⟨hn, hk.out_nodup, ?_⟩
          rintro a ha b hb rfl
          exact ((hk.out_mem a).1 hb).2.1 ((ho a).1 ha).1

theorem findAll_none_ok {crit : Uid → Bool} (fuel : Nat) (root : Uid) (V out V' : List Uid) (hr : root ∉ V)
    (h : findAll succ crit fuel none root V = some (out, V')) : FindOk succ crit (fun _ => True) root V out V' := by
  induction fuel generalizing root V out V' with
  | zero => cases h
  | succ fuel ih =>
    unfold findAll at h
    simp only at h
    refine findLoop_ok (findAll succ crit fuel none) root V (succ root) (root :: V) _ out V' (fun c W o W' _ hcW hh => ih c W o W' hcW hh)
      (fun _ h => h) (fun x hx => by simp [hx]) (by simp) ?_ ?_ ?_ ?_ ?_ h
    · intro x hx
      rcases List.mem_cons.1 hx with rfl | hx
      · exact Or.inr ⟨0, .refl _⟩
      · exact Or.inl hx
    · intro x hx hx0 hxr
      rcases List.mem_cons.1 hx with rfl | hx
      · exact absurd rfl hxr
      · exact absurd hx hx0
    · intro y hy; exact Or.inr hy
    · intro x
      split
      · rename_i hcr
        simp only [List.mem_cons, List.not_mem_nil, or_false]
        constructor
        · rintro rfl; exact ⟨Or.inl rfl, hr, hcr⟩
        · rintro ⟨h1 | h1, h2, _⟩
          · exact h1
          · exact absurd h1 h2
      · rename_i hcr
        simp only [List.not_mem_nil, false_iff, List.mem_cons]
        rintro ⟨rfl | h1, h2, h3⟩
        · exact hcr h3
        · exact h2 h1
    · split <;> simp

theorem findLoop_some (rec : Uid → List Uid → Option (List Uid × List Uid)) (cs V out : List Uid)
    (hsub : ∀ c W o W', rec c W = some (o, W') → ∀ x ∈ W, x ∈ W')
    (hrec : ∀ c W, c ∈ cs → c ∉ W → (∀ x ∈ V, x ∈ W) → ∃ R, rec c W = some R) :
    ∃ R, findLoop rec cs V out = some R := by
  induction cs generalizing V out with
  | nil => exact ⟨_, rfl⟩
  | cons c cs ih =>
    unfold findLoop
    split
    · exact ih V out (fun c' W h1 h2 h3 => hrec c' W (by simp [h1]) h2 h3)
    · rename_i hmem
      obtain ⟨⟨res, V1⟩, hR⟩ := hrec c V (by simp) hmem (fun _ h => h)
      rw [hR]
      exact ih V1 _ (fun c' W h1 h2 h3 => hrec c' W (by simp [h1]) h2 (fun x hx => h3 x (hsub _ _ _ _ hR x hx)))

theorem findLoop_sub (rec : Uid → List Uid → Option (List Uid × List Uid)) (cs V out : List Uid)
    (hsub : ∀ c W o W', rec c W = some (o, W') → ∀ x ∈ W, x ∈ W') (o' V' : List Uid) (h : findLoop rec cs V out = some (o', V')) :
    ∀ x ∈ V, x ∈ V' := by
  induction cs generalizing V out with
  | nil => simp only [findLoop, Option.some.injEq, Prod.mk.injEq] at h; obtain ⟨_, rfl⟩ := h; exact fun _ h => h
  | cons c cs ih =>
    unfold findLoop at h
    split at h
    · exact ih V out h
    · split at h
      · cases h
      · rename_i res V1 hres
        intro x hx
        exact ih V1 _ h x (hsub _ _ _ _ hres x hx)

theorem findAll_sub {crit : Uid → Bool} (fuel : Nat) (d : Option Nat) (root : Uid) (V o V' : List Uid)
    (h : findAll succ crit fuel d root V = some (o, V')) : ∀ x ∈ V, x ∈ V' := by
  induction fuel generalizing d root V o V' with
  | zero => cases h
  | succ fuel ih =>
    unfold findAll at h
    simp only at h
    intro x hx
    split at h
    · exact findLoop_sub _ _ _ _ (fun c W o W' hh => ih none c W o W' hh) _ _ h x (by simp [hx])
    · simp only [Option.some.injEq, Prod.mk.injEq] at h; obtain ⟨_, rfl⟩ := h; simp [hx]
    · rename_i k
      exact findLoop_sub _ _ _ _ (fun c W o W' hh => ih (some k) c W o W' hh) _ _ h x (by simp [hx])

theorem findAll_some {crit : Uid → Bool} (U : List Uid) (hU : ∀ x ∈ U, ∀ y ∈ succ x, y ∈ U) (fuel : Nat) (d : Option Nat) (root : Uid)
    (V : List Uid) (hroot : root ∈ U) (hf : left U (root :: V) + 1 ≤ fuel) : ∃ R, findAll succ crit fuel d root V = some R := by
  induction fuel generalizing d root V with
  | zero => omega
  | succ fuel ih =>
    have key : ∀ d' c W, c ∈ succ root → c ∉ W → (∀ x ∈ root :: V, x ∈ W) → ∃ R, findAll succ crit fuel d' c W = some R := by
      intro d' c W hc hcW hW
      apply ih d' c W (hU _ hroot _ hc)
      have h1 : left U (c :: W) < left U W := left_lt (fun x hx => by simp [hx]) (hU _ hroot _ hc) hcW (by simp)
      have h2 : left U W ≤ left U (root :: V) := left_mono hW
      omega
    unfold findAll
    simp only
    split
    · exact findLoop_some _ _ _ _ (fun c W o W' hh => findAll_sub _ _ _ _ _ _ hh) (key none)
    · exact ⟨_, rfl⟩
    · rename_i k
      exact findLoop_some _ _ _ _ (fun c W o W' hh => findAll_sub _ _ _ _ _ _ hh) (key (some k))

/-! ### depth limited -/

theorem findLoop_within {crit : Uid → Bool} (P : Uid → Prop) (rec : Uid → List Uid → Option (List Uid × List Uid)) (cs V out o' V' : List Uid)
    (hrec : ∀ c W o W', c ∈ cs → c ∉ W → rec c W = some (o, W') → (∀ x, x ∈ o ↔ x ∈ W' ∧ x ∉ W ∧ crit x = true) ∧ o.Nodup ∧
      (∀ x ∈ W, x ∈ W') ∧ ∀ x ∈ W', x ∈ W ∨ P x)
    (V0 : List Uid) (hsub : ∀ x ∈ V0, x ∈ V)
    (ho : ∀ x, x ∈ out ↔ x ∈ V ∧ x ∉ V0 ∧ crit x = true) (hn : out.Nodup) (hP : ∀ x ∈ V, x ∈ V0 ∨ P x)
    (h : findLoop rec cs V out = some (o', V')) :
    (∀ x, x ∈ o' ↔ x ∈ V' ∧ x ∉ V0 ∧ crit x = true) ∧ o'.Nodup ∧ (∀ x ∈ V0, x ∈ V') ∧ ∀ x ∈ V', x ∈ V0 ∨ P x := by
  induction cs generalizing V out with
  | nil => simp only [findLoop, Option.some.injEq, Prod.mk.injEq] at h; obtain ⟨rfl, rfl⟩ := h; exact ⟨ho, hn, hsub, hP⟩
  | cons c cs ih =>
    unfold findLoop at h
    split at h
    · exact ih V out (fun c' W o W' hc' => hrec c' W o W' (by simp [hc'])) hsub ho hn hP h
    · rename_i hmem
      split at h
      · cases h
      · rename_i res V1 hres
        obtain ⟨k1, k2, k3, k4⟩ := hrec c V res V1 (by simp) hmem hres
        refine ih V1 (out ++ res) (fun c' W o W' hc' => hrec c' W o W' (by simp [hc'])) (fun x hx => k3 x (hsub x hx)) ?_ ?_ ?_ h
        · intro x
          rw [List.mem_append, ho, k1]
          constructor
          · rintro (⟨a, b, c⟩ | ⟨a, b, c⟩)
            · exact ⟨k3 _ a, b, c⟩
            · exact ⟨a, fun hx0 => b (hsub _ hx0), c⟩
          · rintro ⟨a, b, c⟩
            by_cases hxV : x ∈ V
            · exact Or.inl ⟨hxV, b, c⟩
            · exact Or.inr ⟨a, hxV, c⟩
        · rw [List.nodup_append]
          refine ⟨hn, k2, ?_⟩
          rintro a ha b hb rfl
          exact ((k1 a).1 hb).2.1 ((ho a).1 ha).1
        · intro x hx
          rcases k4 x hx with h | h
          · exact hP x h
          · exact Or.inr h

theorem findAll_within {crit : Uid → Bool} (fuel : Nat) (d : Nat) (root : Uid) (V o V' : List Uid) (hr : root ∉ V)
    (h : findAll succ crit fuel (some d) root V = some (o, V')) :
    (∀ x, x ∈ o ↔ x ∈ V' ∧ x ∉ V ∧ crit x = true) ∧ o.Nodup ∧ (∀ x ∈ V, x ∈ V') ∧ ∀ x ∈ V', x ∈ V ∨ Within succ root d x := by
  induction fuel generalizing d root V o V' with
  | zero => cases h
  | succ fuel ih =>
    unfold findAll at h
    simp only at h
    have hout : ∀ x, x ∈ (if crit root = true then [root] else []) ↔ x ∈ root :: V ∧ x ∉ V ∧ crit x = true := by
      intro x
      split
      · rename_i hcr
        simp only [List.mem_cons, List.not_mem_nil, or_false]
        constructor
        · rintro rfl; exact ⟨Or.inl rfl, hr, hcr⟩
        · rintro ⟨h1 | h1, h2, _⟩
          · exact h1
          · exact absurd h1 h2
      · rename_i hcr
        simp only [List.not_mem_nil, false_iff, List.mem_cons]
        rintro ⟨rfl | h1, h2, h3⟩
        · exact hcr h3
        · exact h2 h1
    have hnd : (if crit root = true then [root] else []).Nodup := by split <;> simp
    cases d with
    | zero =>
      simp only [Option.some.injEq, Prod.mk.injEq] at h
      obtain ⟨rfl, rfl⟩ := h
      refine ⟨hout, hnd, fun x hx => by simp [hx], ?_⟩
      intro x hx
      rcases List.mem_cons.1 hx with rfl | hx
      · exact Or.inr ⟨0, Nat.le_refl _, .refl _⟩
      · exact Or.inl hx
    | succ k =>
      simp only at h
      refine findLoop_within (Within succ root (k + 1)) (findAll succ crit fuel (some k)) (succ root) (root :: V) _ o V' ?_ V
        (fun x hx => by simp [hx]) hout hnd ?_ h
      · intro c W o W' hc hcW hh
        obtain ⟨k1, k2, k3, k4⟩ := ih k c W o W' hcW hh
        refine ⟨k1, k2, k3, ?_⟩
        intro x hx
        rcases k4 x hx with h | ⟨n, hn, hp⟩
        · exact Or.inl h
        · exact Or.inr ⟨n + 1, by omega, Path.head hc (by simp) hp⟩
      · intro x hx
        rcases List.mem_cons.1 hx with rfl | hx
        · exact Or.inr ⟨0, by omega, .refl _⟩
        · exact Or.inl hx

/-- With a level function (every step goes one level down) the depth limited search expands everything above the limit. -/
theorem findAll_level_ok {crit : Uid → Bool} (lvl : Uid → Nat) (hl : ∀ x, ∀ y ∈ succ x, lvl y = lvl x + 1) (D : Nat) (fuel : Nat) (d : Nat)
    (root : Uid) (V out V' : List Uid) (hr : root ∉ V) (hD : lvl root + d = D)
    (h : findAll succ crit fuel (some d) root V = some (out, V')) : FindOk succ crit (fun x => lvl x < D) root V out V' := by
  induction fuel generalizing d root V out V' with
  | zero => cases h
  | succ fuel ih =>
    unfold findAll at h
    simp only at h
    have hout : ∀ x, x ∈ (if crit root = true then [root] else []) ↔ x ∈ root :: V ∧ x ∉ V ∧ crit x = true := by
      intro x
      split
      · rename_i hcr
        simp only [List.mem_cons, List.not_mem_nil, or_false]
        constructor
        · rintro rfl; exact ⟨Or.inl rfl, hr, hcr⟩
        · rintro ⟨h1 | h1, h2, _⟩
          · exact h1
          · exact absurd h1 h2
      · rename_i hcr
        simp only [List.not_mem_nil, false_iff, List.mem_cons]
        rintro ⟨rfl | h1, h2, h3⟩
        · exact hcr h3
        · exact h2 h1
    have hnd : (if crit root = true then [root] else []).Nodup := by split <;> simp
    have hsd : ∀ x ∈ root :: V, x ∈ V ∨ Reach succ root x := by
      intro x hx
      rcases List.mem_cons.1 hx with rfl | hx
      · exact Or.inr ⟨0, .refl _⟩
      · exact Or.inl hx
    cases d with
    | zero =>
      simp only [Option.some.injEq, Prod.mk.injEq] at h
      obtain ⟨rfl, rfl⟩ := h
      refine ⟨fun x hx => by simp [hx], by simp, hsd, ?_, hout, hnd⟩
      intro x hx hx0 hlx
      rcases List.mem_cons.1 hx with rfl | hx
      · omega
      · exact absurd hx hx0
    | succ k =>
      simp only at h
      refine findLoop_ok (findAll succ crit fuel (some k)) root V (succ root) (root :: V) _ out V'
        (fun c W o W' hc hcW hh => ih k c W o W' hcW (by have := hl root c hc; omega) hh)
        (fun _ h => h) (fun x hx => by simp [hx]) (by simp) hsd ?_ ?_ hout hnd h
      · intro x hx hx0 hxr
        rcases List.mem_cons.1 hx with rfl | hx
        · exact absurd rfl hxr
        · exact absurd hx hx0
      · intro y hy; exact Or.inr hy

/-! ### first match -/

/-- The first match is the head of the list of all matches. -/
theorem findFirstLoop_eq (rec1 : Uid → List Uid → Option (Option Uid × List Uid))
    (rec2 : Uid → List Uid → Option (List Uid × List Uid))
    (hrec : ∀ c W o W', rec2 c W = some (o, W') → ∃ W1, rec1 c W = some (o.head?, W1) ∧ (o = [] → W1 = W'))
    (cs V out o' V' : List Uid) (hout : out = []) (h : findLoop rec2 cs V out = some (o', V')) :
    ∃ W1, findFirstLoop rec1 cs V = some (o'.head?, W1) ∧ (o' = [] → W1 = V') := by
  have happ : ∀ (cs V out o' V' : List Uid), findLoop rec2 cs V out = some (o', V') → ∃ t, o' = out ++ t := by
    intro cs
    induction cs with
    | nil => intro V out o' V' h; simp only [findLoop, Option.some.injEq, Prod.mk.injEq] at h; exact ⟨[], by simp [h.1]⟩
    | cons c cs ih =>
      intro V out o' V' h
      unfold findLoop at h
      split at h
      · exact ih _ _ _ _ h
      · split at h
        · cases h
        · obtain ⟨t, ht⟩ := ih _ _ _ _ h
          exact ⟨_, by rw [ht, List.append_assoc]⟩
  subst hout
  induction cs generalizing V with
  | nil => simp only [findLoop, Option.some.injEq, Prod.mk.injEq] at h; obtain ⟨rfl, rfl⟩ := h; exact ⟨V, rfl, fun _ => rfl⟩
  | cons c cs ih =>
    unfold findLoop at h
    unfold findFirstLoop
    split at h
    · rename_i hm; rw [if_pos hm]; exact ih V h
    · rename_i hm
      rw [if_neg hm]
      split at h
      · cases h
      · rename_i res V1 hres
        obtain ⟨W1, h1, h2⟩ := hrec c V res V1 hres
        rw [h1]
        cases res with
        | nil =>
          have := h2 rfl
          subst this
          simp only [List.head?_nil]
          exact ih W1 (by simpa using h)
        | cons x xs =>
          obtain ⟨t, ht⟩ := happ _ _ _ _ _ h
          simp only [List.nil_append, List.cons_append] at ht
          subst ht
          exact ⟨W1, rfl, by simp⟩

theorem findFirst_eq {crit : Uid → Bool} (fuel : Nat) (root : Uid) (V o V' : List Uid) (h : findAll succ crit fuel none root V = some (o, V')) :
    ∃ W1, findFirst succ crit fuel root V = some (o.head?, W1) ∧ (o = [] → W1 = V') := by
  induction fuel generalizing root V o V' with
  | zero => cases h
  | succ fuel ih =>
    unfold findAll at h
    unfold findFirst
    simp only at h ⊢
    by_cases hcr : crit root = true
    · rw [if_pos hcr]
      simp only [hcr, ↓reduceIte] at h
      have happ : ∀ (cs V out o' V' : List Uid), findLoop (findAll succ crit fuel none) cs V out = some (o', V') → ∃ t, o' = out ++ t := by
        intro cs
        induction cs with
        | nil => intro V out o' V' h; simp only [findLoop, Option.some.injEq, Prod.mk.injEq] at h; exact ⟨[], by simp [h.1]⟩
        | cons c cs ih =>
          intro V out o' V' h
          unfold findLoop at h
          split at h
          · exact ih _ _ _ _ h
          · split at h
            · cases h
            · obtain ⟨t, ht⟩ := ih _ _ _ _ h
              exact ⟨_, by rw [ht, List.append_assoc]⟩
      obtain ⟨t, rfl⟩ := happ _ _ _ _ _ h
      exact ⟨_, rfl, by simp⟩
    · rw [if_neg hcr]
      simp only [hcr, Bool.false_eq_true, ↓reduceIte] at h
      exact findFirstLoop_eq _ _ (fun c W o W' hh => ih c W o W' hh) _ _ _ _ _ rfl h

end

end Osp.Search
