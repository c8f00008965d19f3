import Verif.Camel.Spec
import Verif.Names.Resolve
/-!
# The first letter and the spelling of a name (C77)
-/
namespace Osp.Camel

open Osp.Yaml Osp.Names

variable {C : Conv}

theorem splitOn_one {w n : Text} (h : splitOn '.' w = [n]) : w = n ∧ '.' ∉ w := by
  have hj := joinWith_splitOn '.' w
  rw [h] at hj
  refine ⟨hj.symm, fun hm => ?_⟩
  obtain ⟨a, b, rfl, ha⟩ := first_split '.' w hm
  rw [splitOn_append _ _ _ ha] at h
  injection h with _ h
  exact splitOn_ne_nil _ _ h

theorem splitOn_two {w p n : Text} (h : splitOn '.' w = [p, n]) : w = p ++ '.' :: n ∧ '.' ∉ p ∧ '.' ∉ n := by
  by_cases hm : '.' ∈ w
  · obtain ⟨a, b, rfl, ha⟩ := first_split '.' w hm
    rw [splitOn_append _ _ _ ha] at h
    injection h with h1 h2
    obtain ⟨h3, h4⟩ := splitOn_one h2
    subst h1 h3
    exact ⟨rfl, ha, h4⟩
  · rw [splitOn_none _ _ hm] at h
    injection h with _ h
    cases h

theorem splitOn_qualified {p n : Text} (hp : '.' ∉ p) (hn : '.' ∉ n) : splitOn '.' (p ++ '.' :: n) = [p, n] := by
  rw [splitOn_append _ _ _ hp, splitOn_none _ _ hn]

theorem qualified_inj {p n q m : Text} (hp : '.' ∉ p) (hn : '.' ∉ n) (hq : '.' ∉ q) (hm : '.' ∉ m) (h : p ++ '.' :: n = q ++ '.' :: m) : p = q ∧ n = m := by
  have h1 := splitOn_qualified hp hn
  rw [h, splitOn_qualified hq hm] at h1
  injection h1 with h1 h2
  injection h2 with h2 _
  exact ⟨h1.symm, h2.symm⟩

theorem dot_mem (p n : Text) : '.' ∈ p ++ '.' :: n := by simp

theorem cubaLower_dot {w : Text} (h : w ∈ cubaLower) : '.' ∈ w := by
  revert w; decide

theorem cubaWords_dot {w : Text} (h : w ∈ cubaWords) : '.' ∈ w := by
  revert w; decide

theorem mem_cubaWords {w : Text} : w ∈ cubaWords ↔ w = cubaEntity ∨ w ∈ cubaLower ∨ w ∈ cubaUpper := by
  show w ∈ (cubaEntity :: (cubaLower ++ cubaUpper)) ↔ _
  rw [List.mem_cons, List.mem_append]

/-! ### what the spelling rules say -/

theorem isProp_own {ns : Text} {orig : Entries} {ans : Text → Bool} {p n : Text} (hp : '.' ∉ p) (hn : '.' ∉ n) (hc : p ++ '.' :: n ∉ cubaWords) (hl : lower p = ns) :
    IsProp ns orig ans (p ++ '.' :: n) ↔ IsProp ns orig ans n := by
  constructor
  · intro h
    generalize hw : p ++ '.' :: n = w at h
    cases h with
    | cuba h => exact absurd (by rw [hw]; exact List.mem_cons_of_mem _ (List.mem_append.2 (Or.inl h))) hc
    | foreign h1 h2 h3 h4 h5 => obtain ⟨rfl, rfl⟩ := qualified_inj hp hn h1 h2 hw; exact absurd hl h4
    | own h1 h2 h3 h4 h5 => obtain ⟨rfl, rfl⟩ := qualified_inj hp hn h1 h2 hw; exact h5
    | super h1 _ _ _ _ => exact absurd (by rw [← hw]; exact dot_mem p n) h1
  · exact fun h => .own hp hn hc hl h

theorem isProp_foreign {ns : Text} {orig : Entries} {ans : Text → Bool} {p n : Text} (hp : '.' ∉ p) (hn : '.' ∉ n) (hc : p ++ '.' :: n ∉ cubaWords) (hl : lower p ≠ ns) :
    IsProp ns orig ans (p ++ '.' :: n) ↔ ans (p ++ '.' :: n) = false := by
  constructor
  · intro h
    generalize hw : p ++ '.' :: n = w at h
    cases h with
    | cuba h => exact absurd (by rw [hw]; exact List.mem_cons_of_mem _ (List.mem_append.2 (Or.inl h))) hc
    | foreign h1 h2 h3 h4 h5 => exact h5
    | own h1 h2 h3 h4 h5 => obtain ⟨rfl, rfl⟩ := qualified_inj hp hn h1 h2 hw; exact absurd h4 hl
    | super h1 _ _ _ _ => exact absurd (by rw [← hw]; exact dot_mem p n) h1
  · exact fun h => .foreign hp hn hc hl h

theorem isProp_cuba {ns : Text} {orig : Entries} {ans : Text → Bool} {w : Text} (hc : w ∈ cubaWords) : IsProp ns orig ans w ↔ w ∈ cubaLower := by
  constructor
  · intro h
    cases h with
    | cuba h => exact h
    | foreign h1 h2 h3 h4 h5 => exact absurd hc h3
    | own h1 h2 h3 h4 h5 => exact absurd hc h3
    | super h1 _ _ _ _ => exact absurd (cubaWords_dot hc) h1
  · exact .cuba

theorem isProp_name {ns : Text} {orig : Entries} {ans : Text → Bool} {n : Text} {l : List Yaml} (hn : '.' ∉ n) (hd : Defined orig n l) :
    IsProp ns orig ans n ↔ (∀ x ∈ l, isDict x = false) ∧ ∃ w, .str w ∈ l ∧ IsProp ns orig ans w := by
  constructor
  · intro h
    cases h with
    | cuba h => exact absurd (cubaLower_dot h) hn
    | foreign h1 h2 h3 h4 h5 => exact absurd (dot_mem _ _) hn
    | own h1 h2 h3 h4 h5 => exact absurd (dot_mem _ _) hn
    | super h1 h2 h3 h4 h5 =>
      obtain ⟨e, he, hl⟩ := hd
      obtain ⟨e', he', hl'⟩ := h2
      rw [he] at he'
      injection he' with he'
      injection he' with he'
      subst he'
      rw [hl] at hl'
      injection hl' with hl'
      injection hl' with hl'
      subst hl'
      exact ⟨h3, _, h4, h5⟩
  · rintro ⟨h1, w, h2, h3⟩
    exact .super hn hd h1 h2 h3

theorem superclasses_ok {n : Text} {l : List Yaml} : superclasses C n = .ok l ↔ Defined C.orig n l := by
  unfold superclasses Defined
  constructor
  · intro h
    split at h
    · cases h
    · rename_i e he
      split at h
      · cases h
      · rename_i l' hl
        cases h
        exact ⟨e, he, hl⟩
      · cases h
    · cases h
  · rintro ⟨e, he, hl⟩
    rw [he]
    simp only [hl]

/-! ### the recorded answers -/

theorem agrees_prefix {ans : Text → Bool} {s s' : Asked} (h : s <+: s') (ha : Agrees ans s') : Agrees ans s := fun e he => ha e (h.subset he)

theorem recorded_mem {s : Asked} {w : Text} {b : Bool} (h : recorded s w = some b) : (w, b) ∈ s := by
  unfold recorded at h
  obtain ⟨e, he, hb⟩ := Option.map_eq_some_iff.1 h
  have h1 := List.find?_some he
  have h2 := List.mem_of_find?_eq_some he
  have : e.1 = w := by simpa using h1
  rw [← this, ← hb]
  exact h2

theorem recorded_none {s : Asked} {w : Text} (h : recorded s w = none) : ∀ e ∈ s, e.1 ≠ w := by
  unfold recorded at h
  intro e he hw
  rw [Option.map_eq_none_iff, List.find?_eq_none] at h
  exact h e he (by simp [hw])

theorem ask_spec (w : Text) (s : Asked) : s <+: (ask C w s).2 ∧ ∀ ans, Agrees ans (ask C w s).2 → ans w = (ask C w s).1 := by
  unfold ask
  split
  · rename_i b h
    exact ⟨List.prefix_refl s, fun ans ha => ha _ (recorded_mem h)⟩
  · exact ⟨List.prefix_append _ _, fun ans ha => ha (w, C.answers s.length) (by simp)⟩

/-! ### `get_first_letter_caps` -/

/-- What a call returns. Specification. -/
def Good (C : Conv) (w : Text) (s : Asked) (r : Option Bool × Asked) : Prop :=
  s <+: r.2 ∧ ∀ ans, Agrees ans r.2 → (r.1 = some false ↔ IsProp C.ns C.orig ans w)

theorem anyIs_prefix {f : Text → Asked → Run (Option Bool × Asked)} (hf : ∀ w s r, f w s = .ok r → Good C w s r) (b : Bool) :
    ∀ (l : List Yaml) (s : Asked) (r : Bool × Asked), anyIs f b l s = .ok r → s <+: r.2 := by
  intro l
  induction l with
  | nil => intro s r h; cases h; exact List.prefix_refl _
  | cons x l ih =>
    intro s r h
    unfold anyIs at h
    split at h
    · cases h; exact List.prefix_refl _
    · rename_i w l' s' heq
      cases heq
      split at h
      · cases h
      · rename_i r1 s1 h1
        split at h
        · cases h; exact (hf _ _ _ h1).1
        · exact (hf _ _ _ h1).1.trans (ih _ _ h)
    · cases h

theorem anyIs_false {f : Text → Asked → Run (Option Bool × Asked)} (hf : ∀ w s r, f w s = .ok r → Good C w s r) :
    ∀ (l : List Yaml) (s : Asked) (r : Bool × Asked), anyIs f false l s = .ok r → ∀ ans, Agrees ans r.2 → (r.1 = true ↔ ∃ w, .str w ∈ l ∧ IsProp C.ns C.orig ans w) := by
  intro l
  induction l with
  | nil => intro s r h ans _; cases h; simp
  | cons x l ih =>
    intro s r h ans ha
    cases x <;> try (cases h; done)
    · rename_i w
      unfold anyIs at h
      split at h
      · cases h
      · rename_i r1 s1 h1
        have hg := hf _ _ _ h1
        split at h
        · rename_i hr
          cases h
          simp only [true_iff]
          exact ⟨w, List.mem_cons_self .., (hg.2 ans ha).1 hr⟩
        · rename_i hr
          have hpre := anyIs_prefix hf false _ _ _ h
          have hnot : ¬ IsProp C.ns C.orig ans w := fun k => hr ((hg.2 ans (agrees_prefix hpre ha)).2 k)
          rw [ih _ _ h ans ha]
          constructor
          · rintro ⟨v, hv, hp⟩; exact ⟨v, List.mem_cons_of_mem _ hv, hp⟩
          · rintro ⟨v, hv, hp⟩
            rcases List.mem_cons.1 hv with hv | hv
            · injection hv with hv; subst hv; exact absurd hp hnot
            · exact ⟨v, hv, hp⟩

theorem caps_good (k : Nat) : ∀ (i : Bool) (w : Text) (s : Asked) (r : Option Bool × Asked), caps C k i w s = .ok r → Good C w s r := by
  induction k with
  | zero => intro i w s r h; cases h
  | succ k ih =>
    intro i w s r h
    unfold caps at h
    split at h
    · rename_i hw
      cases h
      exact ⟨List.prefix_refl _, fun ans _ => by simp only [true_iff]; exact .cuba hw⟩
    rename_i h1
    split at h
    · rename_i hw
      cases h
      refine ⟨List.prefix_refl _, fun ans _ => ?_⟩
      rw [isProp_cuba (by unfold cubaWords; exact List.mem_cons_of_mem _ (List.mem_append.2 (Or.inr hw)))]
      simp [h1]
    rename_i h2
    split at h
    · rename_i hw
      cases h
      refine ⟨List.prefix_refl _, fun ans _ => ?_⟩
      rw [isProp_cuba (by unfold cubaWords; exact List.mem_cons.2 (Or.inl hw))]
      cases i <;> simp [h1]
    rename_i h3
    have hc : w ∉ cubaWords := by
      rw [mem_cubaWords]
      rintro (h | h | h)
      · exact h3 h
      · exact h1 h
      · exact h2 h
    split at h
    · split at h
      · rename_i ns name hs
        obtain ⟨rfl, hp, hn⟩ := splitOn_two hs
        split at h
        · rename_i hl
          split at h
          · cases h
          · rename_i x s1 hx
            cases h
            obtain ⟨g1, g2⟩ := ih _ _ _ _ hx
            refine ⟨g1, fun ans ha => ?_⟩
            rw [isProp_own hp hn hc hl, ← g2 ans ha]
            cases x <;> simp
        · rename_i hl
          cases h
          refine ⟨(ask_spec _ _).1, fun ans ha => ?_⟩
          rw [isProp_foreign hp hn hc hl, (ask_spec _ _).2 ans ha]
          simp
      · cases h
    · rename_i hn
      split at h
      · cases h
      · rename_i l hl
        have hd := superclasses_ok.1 hl
        split at h
        · rename_i hdict
          cases h
          refine ⟨List.prefix_refl _, fun ans _ => ?_⟩
          rw [isProp_name hn hd]
          obtain ⟨x, hx, hx2⟩ := List.any_eq_true.1 hdict
          constructor
          · intro h; cases h
          · rintro ⟨h, _⟩; rw [h x hx] at hx2; cases hx2
        · rename_i hdict
          have hnd : ∀ x ∈ l, isDict x = false := by
            intro x hx
            cases hh : isDict x with
            | false => rfl
            | true => exact absurd (List.any_eq_true.2 ⟨x, hx, hh⟩) hdict
          split at h
          · cases h
          · rename_i s1 ha1
            cases h
            refine ⟨anyIs_prefix (ih true) _ _ _ _ ha1, fun ans ha => ?_⟩
            have := anyIs_false (ih true) _ _ _ ha1 ans ha
            rw [isProp_name hn hd]
            simp only [true_iff] at this ⊢
            exact ⟨hnd, this⟩
          · rename_i s1 ha1
            have hp1 := anyIs_prefix (ih true) _ _ _ _ ha1
            split at h
            · cases h
            · rename_i s2 ha2
              have hp2 := anyIs_prefix (ih true) _ _ _ _ ha2
              cases h
              refine ⟨hp1.trans hp2, fun ans ha => ?_⟩
              have := anyIs_false (ih true) _ _ _ ha1 ans (agrees_prefix hp2 ha)
              rw [isProp_name hn hd, ← this]
              simp
            · rename_i s2 ha2
              have hp2 := anyIs_prefix (ih true) _ _ _ _ ha2
              cases h
              refine ⟨hp1.trans hp2, fun ans ha => ?_⟩
              have := anyIs_false (ih true) _ _ _ ha1 ans (agrees_prefix hp2 ha)
              rw [isProp_name hn hd, ← this]
              cases i <;> simp

theorem caps_bool (k : Nat) (w : Text) (s : Asked) (r : Option Bool × Asked) (h : caps C k false w s = .ok r) : r.1 ≠ none := by
  cases k with
  | zero => cases h
  | succ k =>
    unfold caps at h
    split at h
    · cases h; simp
    split at h
    · cases h; simp
    split at h
    · cases h; simp
    split at h
    · split at h
      · split at h
        · split at h
          · cases h
          · rename_i x s1 _
            cases h
            cases x <;> simp
        · cases h; simp
      · cases h
    · split at h
      · cases h
      · split at h
        · cases h; simp
        · split at h
          · cases h
          · cases h; simp
          · split at h
            · cases h
            · cases h; simp
            · cases h; simp

/-! ### the spelling -/

theorem camelTail_splitOn : ∀ (t : Text), (camelTail false t = match splitOn '_' t with
      | [] => []
      | w :: ws => lower w ++ (ws.map capital).flatten) ∧ camelTail true t = ((splitOn '_' t).map capital).flatten := by
  intro t
  induction t with
  | nil => exact ⟨rfl, rfl⟩
  | cons c t ih =>
    obtain ⟨ih1, ih2⟩ := ih
    by_cases hc : c = '_'
    · subst hc
      constructor
      · show camelTail true t = _
        rw [ih2]
        simp [splitOn, lower]
      · show camelTail true t = _
        rw [ih2]
        simp [splitOn, capital]
    · have hs : splitOn '_' (c :: t) = match splitOn '_' t with
        | [] => [[c]]
        | x :: xs => (c :: x) :: xs := by
        show (if c = '_' then _ else _) = _
        rw [if_neg hc]
        cases splitOn '_' t <;> rfl
      have hne := splitOn_ne_nil '_' t
      constructor
      · rw [camelTail, if_neg hc, hs, ih1]
        cases hx : splitOn '_' t with
        | nil => exact absurd hx hne
        | cons x xs => simp [lower]
      · rw [camelTail, if_neg hc, hs, ih1]
        cases hx : splitOn '_' t with
        | nil => exact absurd hx hne
        | cons x xs => simp [capital]

theorem spell_ok {up : Bool} {n t : Text} (h : spell up n = .ok t) : t = camel up n := by
  cases n with
  | nil => cases h
  | cons c n =>
    cases h
    show _ = _ :: _
    rw [(camelTail_splitOn n).1]
    cases splitOn '_' n <;> rfl

/-- **C77.** A (qualified) name is spelled as specified, for every user whose answers agree with the questions asked so far; answers are only added. -/
theorem toCamelCase_spec (w : Text) (s : Asked) (r : Text × Asked) (h : toCamelCase C w s = .ok r) :
    s <+: r.2 ∧ ∀ ans, Agrees ans r.2 → r.1 = newName C.ns C.orig ans w := by
  unfold toCamelCase at h
  split at h
  · cases h
  · rename_i b s1 hc
    have hg := caps_good _ _ _ _ _ hc
    have hb := caps_bool _ _ _ _ hc
    have key : ∀ ans, Agrees ans s1 → ∀ i : Decidable (¬ IsProp C.ns C.orig ans w), (b == some true) = @decide _ i := by
      intro ans ha i
      have h2 := hg.2 ans ha
      by_cases hp : IsProp C.ns C.orig ans w
      · have h3 := h2.2 hp
        simp only at h3
        rw [h3]
        simp [hp]
      · have h3 : b ≠ some false := fun k => hp (h2.1 k)
        simp only at hb
        simp only [hp, not_false_eq_true, decide_true]
        match b, hb, h3 with
        | some true, _, _ => rfl
        | some false, _, h3 => exact absurd rfl h3
        | none, hb, _ => exact absurd rfl hb
    have hcl := @hc
    split at h
    · rename_i hdot
      split at h
      · rename_i p n rest hs
        split at h
        · cases h
        · rename_i t ht
          cases h
          refine ⟨hg.1, fun ans ha => ?_⟩
          have ht := spell_ok ht
          unfold newName
          rw [hs]
          cases rest with
          | nil =>
            show lower p ++ '.' :: t = lower p ++ '.' :: camel _ n
            rw [ht, key ans ha]
          | cons q rest =>
            -- such a name is refused
            exfalso
            cases hk : C.limit with
            | zero => rw [hk] at hc; cases hc
            | succ k =>
              rw [hk] at hc
              have hcu : w ∉ cubaWords := by
                intro hw
                have : ∀ w ∈ cubaWords, (splitOn '.' w).length = 2 := by decide
                have := this w hw
                rw [hs] at this
                simp at this
              rw [mem_cubaWords] at hcu
              unfold caps at hc
              rw [if_neg (fun k => hcu (Or.inr (Or.inl k))), if_neg (fun k => hcu (Or.inr (Or.inr k))), if_neg (fun k => hcu (Or.inl k)), if_pos hdot, hs] at hc
              cases hc
      · cases h
    · rename_i hdot
      split at h
      · cases h
      · rename_i t ht
        cases h
        refine ⟨hg.1, fun ans ha => ?_⟩
        have ht := spell_ok ht
        unfold newName
        rw [splitOn_none _ _ hdot]
        show t = camel _ w
        rw [ht, key ans ha]

end Osp.Camel
