import Verif.Ymlp.Lemmas
/-!
# The loop that collects the types of all ancestors
-/
namespace Osp.Ymlp
open Osp.Yaml (Yaml)
open Osp.Names (lower)

/-- A name in a namespace that can be the result of splitting a reference of the document. -/
def Ref (x : Text × Text) : Prop := Plain x.1 ∧ Plain x.2 ∧ x.2 ≠ [] ∧ x.1 ≠ [] ∧ lower x.1 = x.1

theorem ref_entity {D : Doc} (hD : Proper D) {e : Entity} (he : e ∈ D.entities) : Ref (D.own, e.name) := ⟨hD.own.2, (hD.names e he).2, (hD.names e he).1, hD.own.1, own_lower D⟩

theorem ref_split {D : Doc} (hD : Proper D) {r ns n : Text} (hr : InDoc D r) (hs : Splits r ns n) : Ref (ns, n) := by
  obtain ⟨a, b, rfl, ha, hb, hpa, hpb, hna, hne⟩ := hD.refs r hr
  obtain ⟨rfl, rfl⟩ := splits_unique hs ⟨a, rfl, ha, hb, rfl⟩
  refine ⟨plain_lower hpa, hpb, hne, ?_, lower_lower a⟩
  intro h
  exact hna (List.map_eq_nil_iff.1 h)

theorem splits_doc {D : Doc} (hD : Proper D) {r : Text} (hr : InDoc D r) : ∃ ns n, Splits r ns n := by
  obtain ⟨a, b, rfl, ha, hb, _⟩ := hD.refs r hr
  exact ⟨_, _, a, rfl, ha, hb, rfl⟩

theorem ref_up {D : Doc} (hD : Proper D) {x y : Text × Text} (h : Up D x y) : Ref y := by
  cases h with
  | step he hr hs => exact ref_split hD (InDoc.super he hr) hs

theorem ref_anc {D : Doc} (hD : Proper D) {x y : Text × Text} (h : Anc D x y) (hx : Ref x) : Ref y := by
  induction h with
  | refl => exact hx
  | step h _ ih => exact ih (ref_up hD h)

theorem Anc.trans {D : Doc} {x y z : Text × Text} (h : Anc D x y) (h' : Anc D y z) : Anc D x z := by
  induction h with
  | refl => exact h'
  | step h _ ih => exact .step h (ih h')

theorem splitAll_ok {l : List (Option Text)} {rs : List (Text × Text)} (h : splitAll l = .ok rs) : ∀ ns n, (ns, n) ∈ rs ↔ ∃ r, some r ∈ l ∧ Splits r ns n := by
  induction l generalizing rs with
  | nil => cases h; intro ns n; simp
  | cons o l ih =>
    cases o with
    | none =>
      intro ns n
      rw [ih h ns n]
      constructor
      · rintro ⟨r, hr, hs⟩; exact ⟨r, List.mem_cons_of_mem _ hr, hs⟩
      · rintro ⟨r, hr, hs⟩
        rcases List.mem_cons.1 hr with hr | hr
        · cases hr
        · exact ⟨r, hr, hs⟩
    | some r0 =>
      rw [splitAll, bind_ok] at h
      obtain ⟨⟨ns0, n0⟩, h1, h⟩ := h
      rw [bind_ok] at h
      obtain ⟨xs, h2, h⟩ := h
      cases h
      have h1 := (splitName_iff _ _ _).1 h1
      intro ns n
      rw [List.mem_cons, ih h2 ns n]
      constructor
      · rintro (h | ⟨r, hr, hs⟩)
        · cases h; exact ⟨r0, List.mem_cons_self, h1⟩
        · exact ⟨r, List.mem_cons_of_mem _ hr, hs⟩
      · rintro ⟨r, hr, hs⟩
        rcases List.mem_cons.1 hr with hr | hr
        · cases hr
          obtain ⟨rfl, rfl⟩ := splits_unique hs h1
          exact Or.inl rfl
        · exact Or.inr ⟨r, hr, hs⟩

theorem splitAll_total {D : Doc} (hD : Proper D) {e : Entity} (he : e ∈ D.entities) : ∃ rs, splitAll e.supers = .ok rs := by
  have : ∀ l, (∀ r, some r ∈ l → Super e r) → ∃ rs, splitAll l = .ok rs := by
    intro l hl
    induction l with
    | nil => exact ⟨[], rfl⟩
    | cons o l ih =>
      obtain ⟨rs, hrs⟩ := ih (fun r hr => hl r (List.mem_cons_of_mem _ hr))
      cases o with
      | none => exact ⟨rs, hrs⟩
      | some r =>
        obtain ⟨ns, n, hs⟩ := splits_doc hD (InDoc.super he (hl r List.mem_cons_self))
        exact ⟨(ns, n) :: rs, by rw [splitAll, (splitName_iff _ _ _).2 hs, hrs]; rfl⟩
  exact this e.supers (fun r hr => hr)

/-- What the loop needs of a name: it has a meaning, and names of the document's own namespace are spelled as there. -/
def Named (D : Doc) (g : Gr) (x : Text × Text) : Prop := (∃ i, getIri D g x.1 x.2 = .ok i) ∧ (x.1 = D.own → ∃ e ∈ D.entities, e.name = x.2)

/-- The names above a name in the document's own namespace. -/
theorem up_iff {D : Doc} (hD : Proper D) {e : Entity} (he : e ∈ D.entities) {rs : List (Text × Text)} (h : splitAll e.supers = .ok rs) (y : Text × Text) :
    Up D (D.own, e.name) y ↔ y ∈ rs := by
  obtain ⟨ns, n⟩ := y
  rw [splitAll_ok h]
  constructor
  · intro hu
    generalize hx : (D.own, e.name) = x at hu
    cases hu with
    | step he' hr hs =>
      injection hx with _ hx
      have := name_inj hD.distinct he he' hx
      subst this
      exact ⟨_, hr, hs⟩
  · rintro ⟨r, hr, hs⟩
    exact .step he hr hs

theorem up_own {D : Doc} {x y : Text × Text} (h : Up D x y) : x.1 = D.own := by cases h; rfl

theorem anc_cases {D : Doc} {x y : Text × Text} : Anc D x y ↔ x = y ∨ ∃ z, Up D x z ∧ Anc D z y := by
  constructor
  · intro h
    cases h with
    | refl => exact Or.inl rfl
    | step h h' => exact Or.inr ⟨_, h, h'⟩
  · rintro (rfl | ⟨z, h, h'⟩)
    · exact .refl
    · exact .step h h'

/-- The loop, when it ends without an exception: the types of all ancestors, which all have a meaning, and above which there is no infinite chain. -/
theorem walk_ok {D : Doc} (hD : Proper D) {h : Gr} {n : Nat} {q : List (Text × Text)} {acc T : List Owl} (hw : walk D h n q acc = .ok T) :
    (∀ k, k ∈ T ↔ k ∈ acc ∨ ∃ x ∈ q, ∃ y, Anc D x y ∧ ∃ i, getIri D h y.1 y.2 = .ok i ∧ k ∈ kindTypes ∧ hasType h i k = true) ∧
    (∀ x ∈ q, ∀ y, Anc D x y → Named D h y) ∧ ∀ x ∈ q, Acc (fun b a => Up D a b) x := by
  induction n generalizing q acc with
  | zero =>
    cases q with
    | nil => cases hw; exact ⟨fun k => by simp, fun x hx => (by cases hx), fun x hx => (by cases hx)⟩
    | cons x q => cases hw
  | succ n ih =>
    cases q with
    | nil => cases hw; exact ⟨fun k => by simp, fun x hx => (by cases hx), fun x hx => (by cases hx)⟩
    | cons x q =>
      obtain ⟨ns, name⟩ := x
      rw [walk, bind_ok] at hw
      obtain ⟨i, hi, hw⟩ := hw
      simp only at hw
      split at hw
      · rename_i hns
        split at hw
        · cases hw
        · rename_i e he
          obtain ⟨hem, hne⟩ := find_some he
          rw [bind_ok] at hw
          obtain ⟨rs, hrs, hw⟩ := hw
          obtain ⟨h1, h2, h3⟩ := ih hw
          subst hns hne
          have hup := up_iff hD hem hrs
          refine ⟨?_, ?_, ?_⟩
          · intro k
            rw [h1 k, List.mem_append, List.mem_filter]
            constructor
            · rintro ((hk | ⟨hk, hk'⟩) | ⟨x, hx, y, hy, hh⟩)
              · exact Or.inl hk
              · exact Or.inr ⟨_, List.mem_cons_self, _, .refl, i, hi, hk, hk'⟩
              · rcases List.mem_append.1 hx with hx | hx
                · exact Or.inr ⟨_, List.mem_cons_self, y, .step ((hup x).2 (List.mem_reverse.1 hx)) hy, hh⟩
                · exact Or.inr ⟨x, List.mem_cons_of_mem _ hx, y, hy, hh⟩
            · rintro (hk | ⟨x, hx, y, hy, j, hj, hk, hk'⟩)
              · exact Or.inl (Or.inl hk)
              · rcases List.mem_cons.1 hx with rfl | hx
                · rcases anc_cases.1 hy with rfl | ⟨z, hz, hzy⟩
                  · rw [hi] at hj; cases hj
                    exact Or.inl (Or.inr ⟨hk, hk'⟩)
                  · exact Or.inr ⟨z, List.mem_append_left _ (List.mem_reverse.2 ((hup z).1 hz)), y, hzy, j, hj, hk, hk'⟩
                · exact Or.inr ⟨x, List.mem_append_right _ hx, y, hy, j, hj, hk, hk'⟩
          · intro x hx y hy
            rcases List.mem_cons.1 hx with rfl | hx
            · rcases anc_cases.1 hy with rfl | ⟨z, hz, hzy⟩
              · exact ⟨⟨i, hi⟩, fun _ => ⟨e, hem, rfl⟩⟩
              · exact h2 z (List.mem_append_left _ (List.mem_reverse.2 ((hup z).1 hz))) y hzy
            · exact h2 x (List.mem_append_right _ hx) y hy
          · intro x hx
            rcases List.mem_cons.1 hx with rfl | hx
            · exact ⟨_, fun z hz => h3 z (List.mem_append_left _ (List.mem_reverse.2 ((hup z).1 hz)))⟩
            · exact h3 x (List.mem_append_right _ hx)
      · rename_i hns
        obtain ⟨h1, h2, h3⟩ := ih hw
        refine ⟨?_, ?_, ?_⟩
        · intro k
          rw [h1 k, List.mem_append, List.mem_filter]
          constructor
          · rintro ((hk | ⟨hk, hk'⟩) | ⟨x, hx, hh⟩)
            · exact Or.inl hk
            · exact Or.inr ⟨_, List.mem_cons_self, _, .refl, i, hi, hk, hk'⟩
            · exact Or.inr ⟨x, List.mem_cons_of_mem _ hx, hh⟩
          · rintro (hk | ⟨x, hx, y, hy, j, hj, hk, hk'⟩)
            · exact Or.inl (Or.inl hk)
            · rcases List.mem_cons.1 hx with rfl | hx
              · rcases anc_cases.1 hy with rfl | ⟨z, hz, hzy⟩
                · rw [hi] at hj; cases hj
                  exact Or.inl (Or.inr ⟨hk, hk'⟩)
                · exact absurd (up_own hz) hns
              · exact Or.inr ⟨x, hx, y, hy, j, hj, hk, hk'⟩
        · intro x hx y hy
          rcases List.mem_cons.1 hx with rfl | hx
          · rcases anc_cases.1 hy with rfl | ⟨z, hz, hzy⟩
            · exact ⟨⟨i, hi⟩, fun h => absurd h hns⟩
            · exact absurd (up_own hz) hns
          · exact h2 x hx y hy
        · intro x hx
          rcases List.mem_cons.1 hx with rfl | hx
          · exact ⟨_, fun z hz => absurd (up_own hz) hns⟩
          · exact h3 x hx

/-- An exception means that some ancestor has no meaning. -/
theorem walk_raised {D : Doc} (hD : Proper D) {h : Gr} {n : Nat} {q : List (Text × Text)} {acc : List Owl} {err : PyErr} (hw : walk D h n q acc = .error (.raised err)) :
    ∃ x ∈ q, ∃ y, Anc D x y ∧ ¬ Named D h y := by
  induction n generalizing q acc with
  | zero =>
    cases q with
    | nil => cases hw
    | cons x q => cases hw
  | succ n ih =>
    cases q with
    | nil => cases hw
    | cons x q =>
      obtain ⟨ns, name⟩ := x
      rw [walk] at hw
      cases hi : getIri D h ns name with
      | error e =>
        refine ⟨_, List.mem_cons_self, _, .refl, ?_⟩
        rintro ⟨⟨i, hh⟩, _⟩
        simp only at hh
        rw [hi] at hh; cases hh
      | ok i =>
        rw [hi] at hw
        replace hw : (if ns = D.own then _ else _) = _ := hw
        split at hw
        · rename_i hns
          split at hw
          · rename_i he
            refine ⟨_, List.mem_cons_self, _, .refl, ?_⟩
            rintro ⟨_, hh⟩
            have := find_isSome.2 (hh hns)
            simp only at this
            rw [he] at this; cases this
          · rename_i e he
            obtain ⟨hem, hne⟩ := find_some he
            obtain ⟨rs, hrs⟩ := splitAll_total hD hem
            rw [hrs] at hw
            obtain ⟨x, hx, y, hy, hh⟩ := ih hw
            subst hns hne
            rcases List.mem_append.1 hx with hx | hx
            · exact ⟨_, List.mem_cons_self, y, .step ((up_iff hD hem hrs x).2 (List.mem_reverse.1 hx)) hy, hh⟩
            · exact ⟨x, List.mem_cons_of_mem _ hx, y, hy, hh⟩
        · obtain ⟨x, hx, hh⟩ := ih hw
          exact ⟨x, List.mem_cons_of_mem _ hx, hh⟩

/-- More turns do not change the outcome. -/
theorem walk_more {D : Doc} {h : Gr} {n : Nat} {q : List (Text × Text)} {acc : List Owl} (hw : walk D h n q acc ≠ .error .unfinished) (m : Nat) :
    walk D h (n + m) q acc = walk D h n q acc := by
  induction n generalizing q acc with
  | zero =>
    cases q with
    | nil => cases m <;> simp [walk]
    | cons x q => exact absurd rfl hw
  | succ n ih =>
    rw [Nat.succ_add]
    cases q with
    | nil => rfl
    | cons x q =>
      obtain ⟨ns, name⟩ := x
      rw [walk] at hw
      rw [walk, walk]
      cases hi : getIri D h ns name with
      | error e => rfl
      | ok i =>
        rw [hi] at hw
        change (if ns = D.own then _ else _) ≠ _ at hw
        change (if ns = D.own then _ else _) = (if ns = D.own then _ else _)
        split at hw
        · rename_i hns
          rw [if_pos hns, if_pos hns]
          split at hw
          · rfl
          · rename_i e he
            cases hrs : splitAll e.supers with
            | error e => rfl
            | ok rs =>
              rw [hrs] at hw
              exact ih hw
        · rename_i hns
          rw [if_neg hns, if_neg hns]
          exact ih hw

/-- The loop gets past a name in a certain number of turns, whatever is behind it. -/
def Passes (D : Doc) (g : Gr) (xs : List (Text × Text)) (n : Nat) : Prop :=
  ∀ h, Ext D g h → ∀ m q acc, ∃ acc', walk D h (n + m) (xs ++ q) acc = walk D h m q acc'

theorem passes_list {D : Doc} {g : Gr} {xs : List (Text × Text)} (hP : ∀ x ∈ xs, ∃ n, Passes D g [x] n) : ∃ n, Passes D g xs n := by
  induction xs with
  | nil => exact ⟨0, fun h _ m q acc => ⟨acc, by simp⟩⟩
  | cons x xs ih =>
    obtain ⟨n1, h1⟩ := hP x List.mem_cons_self
    obtain ⟨n2, h2⟩ := ih (fun y hy => hP y (List.mem_cons_of_mem _ hy))
    refine ⟨n1 + n2, fun h hx m q acc => ?_⟩
    obtain ⟨acc1, e1⟩ := h1 h hx (n2 + m) (xs ++ q) acc
    obtain ⟨acc2, e2⟩ := h2 h hx m q acc1
    exact ⟨acc2, by rw [Nat.add_assoc, List.cons_append]; exact e1.trans e2⟩

/-- If all ancestors have a meaning and there is no infinite chain above the name, then the loop gets past it. -/
theorem walk_passes {D : Doc} {g : Gr} (hD : Proper D) (hg : Ready D g) {x : Text × Text} (hacc : Acc (fun b a => Up D a b) x) (hx : Ref x) (hn : ∀ y, Anc D x y → Named D g y) :
    ∃ n, Passes D g [x] n := by
  induction hacc with
  | intro x _ ih =>
    obtain ⟨⟨i, hi⟩, hown⟩ := hn x .refl
    by_cases ho : x.1 = D.own
    · obtain ⟨e, he, hne⟩ := hown ho
      obtain ⟨rs, hrs⟩ := splitAll_total hD he
      have hxe : x = (D.own, e.name) := by rw [← ho, hne]
      obtain ⟨n, hp⟩ := passes_list (D := D) (g := g) (xs := rs.reverse) (fun y hy => by
        have hu : Up D x y := by rw [hxe]; exact (up_iff hD he hrs y).2 (List.mem_reverse.1 hy)
        exact ih y hu (ref_up hD hu) (fun z hz => hn z (.step hu hz)))
      refine ⟨n + 1, fun h hext m q acc => ?_⟩
      have hi' : getIri D h x.1 x.2 = .ok i := by rw [getIri_ext hD hg hext hx.1 hx.2.1]; exact hi
      obtain ⟨acc', e'⟩ := hp h hext m q (acc ++ kindTypes.filter (hasType h i))
      refine ⟨acc', ?_⟩
      rw [← e', Nat.succ_add, List.singleton_append]
      conv => lhs; rw [show x = (x.1, x.2) from rfl, walk, hi']
      change (if x.1 = D.own then _ else _) = _
      rw [if_pos ho, ← hne, find_mem hD he]
      change (splitAll e.supers >>= _) = _
      rw [hrs]
      rfl
    · refine ⟨1, fun h hext m q acc => ?_⟩
      have hi' : getIri D h x.1 x.2 = .ok i := by rw [getIri_ext hD hg hext hx.1 hx.2.1]; exact hi
      refine ⟨acc ++ kindTypes.filter (hasType h i), ?_⟩
      rw [Nat.add_comm 1 m, List.singleton_append]
      conv => lhs; rw [show x = (x.1, x.2) from rfl, walk, hi']
      change (if x.1 = D.own then _ else _) = _
      rw [if_neg ho]

/-! ### cycles -/

/-- One or more steps up. -/
def Above (D : Doc) (x y : Text × Text) : Prop := ∃ z, Up D x z ∧ Anc D z y

theorem acc_not_above {D : Doc} {x : Text × Text} (h : Acc (fun b a => Up D a b) x) : ¬ Above D x x := by
  induction h with
  | intro x _ ih =>
    rintro ⟨z, hu, ha⟩
    refine ih z hu ?_
    rcases anc_cases.1 ha with rfl | ⟨w, hw, hwx⟩
    · exact ⟨z, hu, ha⟩
    · exact ⟨w, hw, hwx.trans (.step hu .refl)⟩

theorem filter_lt {α : Type} (p q : α → Bool) {l : List α} (hpq : ∀ a ∈ l, p a = true → q a = true) {a : α} (ha : a ∈ l) (hq : q a = true) (hp : p a = false) :
    (l.filter p).length < (l.filter q).length := by
  have hle : ∀ l : List α, (∀ a ∈ l, p a = true → q a = true) → (l.filter p).length ≤ (l.filter q).length := by
    intro l hl
    induction l with
    | nil => simp
    | cons b l ih =>
      have ih := ih (fun x hx => hl x (List.mem_cons_of_mem _ hx))
      have hb := hl b List.mem_cons_self
      rw [List.filter_cons, List.filter_cons]
      cases hpb : p b with
      | true => rw [hb hpb]; simpa using ih
      | false =>
        cases hqb : q b with
        | true => simp; omega
        | false => simpa using ih
  induction l with
  | nil => cases ha
  | cons b l ih =>
    have hl := hle l (fun x hx => hpq x (List.mem_cons_of_mem _ hx))
    have hb := hpq b List.mem_cons_self
    rw [List.filter_cons, List.filter_cons]
    rcases List.mem_cons.1 ha with rfl | ha
    · rw [hq, hp]; simp; omega
    · have ih := ih (fun x hx => hpq x (List.mem_cons_of_mem _ hx)) ha
      cases hpb : p b with
      | true => rw [hb hpb]; simpa using ih
      | false =>
        cases hqb : q b with
        | true => simp; omega
        | false => simpa using ih

open Classical in
/-- Without cycles there are no infinite chains: there are only finitely many entities. -/
theorem acyclic_acc {D : Doc} (h : Acyclic D) (x : Text × Text) : Acc (fun b a => Up D a b) x := by
  have key : ∀ n x, (D.entities.filter (fun e => decide (Above D x (D.own, e.name)))).length < n → Acc (fun b a => Up D a b) x := by
    intro n
    induction n with
    | zero => intro x hx; omega
    | succ n ih =>
      intro x hx
      refine ⟨_, fun y hy => ?_⟩
      by_cases hy0 : ∃ e ∈ D.entities, y = (D.own, e.name)
      · obtain ⟨e, he, rfl⟩ := hy0
        refine ih _ ?_
        have := filter_lt (fun e' => decide (Above D (D.own, e.name) (D.own, e'.name))) (fun e' => decide (Above D x (D.own, e'.name))) (l := D.entities)
          (fun a _ ha => by
            simp only [decide_eq_true_eq] at ha ⊢
            obtain ⟨z, hz, hza⟩ := ha
            exact ⟨_, hy, .step hz hza⟩) he
          (by simp only [decide_eq_true_eq]; exact ⟨_, hy, .refl⟩)
          (by simp only [decide_eq_false_iff_not]; exact h e he)
        omega
      · refine ⟨_, fun z hz => absurd ?_ hy0⟩
        cases hz with
        | step he _ _ => exact ⟨_, he, rfl⟩
  exact key _ x (Nat.lt_succ_self _)

end Osp.Ymlp
