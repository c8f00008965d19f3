import Verif.Show.Pretty
import Verif.Utils.Props
import Verif.Iri.Props
/-!
# Properties of the presentations of a session (C75, C76)
-/
namespace Osp.Show
open Osp.Cuds Osp.Search Osp.Utils

/-! ### Sorting -/

theorem insertBy_perm {α : Type} (le : α → α → Bool) (x : α) (l : List α) : (insertBy le x l).Perm (x :: l) := by
  induction l with
  | nil => exact .refl _
  | cons y l ih =>
    unfold insertBy
    split
    · exact .refl _
    · exact (ih.cons y).trans (.swap x y l)

theorem sortBy_perm {α : Type} (le : α → α → Bool) (l : List α) : (sortBy le l).Perm l := by
  induction l with
  | nil => exact .refl _
  | cons x l ih => exact (insertBy_perm le x _).trans (ih.cons x)

/-! ### Specification -/

/-- The objects whose details are printed, in this order. -/
def described (ls : List Line) : List Uid := ls.filterMap fun l => match l.what with
  | .details y => some y
  | _ => none

/-- The links that are printed, in this order: from, by, to. -/
def shownLinks (ls : List Line) : List (Uid × Rel × Uid) := ls.filterMap fun l => match l.what with
  | .obj x r y => some (x, r, y)
  | _ => none

/-- An object has a value for the attribute called `name`. -/
def HasName (T : Texts) (O : Onto) (s : Sess) (x : Uid) : Prop := ∃ v, HasValue O s T.nameAttr v x

/-- Two objects linked to `x` below an active relationship of `x` by relationships with the same text, whose classes have the same text; one has a
name, the other one has none. -/
def Clash (T : Texts) (O : Onto) (s : Sess) (x : Uid) : Prop :=
  ∃ r y a ra b rb ca cb, O.subRel r O.active = true ∧ (⟨x, .rel r, .cuds y⟩ : Triple) ∈ s.g ∧
    (⟨x, .rel ra, .cuds a⟩ : Triple) ∈ s.g ∧ O.subRel ra r = true ∧ (⟨x, .rel rb, .cuds b⟩ : Triple) ∈ s.g ∧ O.subRel rb r = true ∧
    T.rel ra = T.rel rb ∧ (⟨a, .type, .cls ca⟩ : Triple) ∈ s.g ∧ (⟨b, .type, .cls cb⟩ : Triple) ∈ s.g ∧ T.cls (some ca) = T.cls (some cb) ∧
    HasName T O s a ∧ ¬ HasName T O s b

/-! ### pretty_print -/

theorem described_eq (ls : List Line) : described ls = nodes (ls.filterMap Line.ev) := by
  unfold described nodes
  rw [List.filterMap_filterMap]
  refine congrArg (fun f => ls.filterMap f) (funext fun l => ?_)
  obtain ⟨ind, w⟩ := l
  cases w <;> rfl

theorem shownLinks_eq (ls : List Line) : shownLinks ls = edges (ls.filterMap Line.ev) := by
  unfold shownLinks edges
  rw [List.filterMap_filterMap]
  refine congrArg (fun f => ls.filterMap f) (funext fun l => ?_)
  obtain ⟨ind, w⟩ := l
  cases w <;> rfl

theorem nameOf_isSome {T : Texts} {O : Onto} (hW : O.WF) {s : Sess} (hs : Reachable O s) (x : Uid) :
    (nameOf T O s x).isSome = true ↔ HasName T O s x := by
  unfold nameOf HasName
  constructor
  · intro h
    cases hg : getAttr O s x T.nameAttr with
    | error e => rw [hg] at h; cases h
    | ok v => exact ⟨v, (attrCrit_iff hW hs).1 (by simp [attrCrit, hg])⟩
  · rintro ⟨v, hv⟩
    have := (attrCrit_iff hW hs).2 hv
    unfold attrCrit at this
    cases hg : getAttr O s x T.nameAttr with
    | error e => rw [hg] at this; cases this
    | ok v => rfl

theorem mem_activeRels {T : Texts} {O : Onto} (hW : O.WF) {s : Sess} (hs : Reachable O s) {x : Uid} {r : Rel} :
    r ∈ activeRels T O s x ↔ (∃ y, (⟨x, .rel r, .cuds y⟩ : Triple) ∈ s.g) ∧ O.subRel r O.active = true := by
  obtain ⟨A, h, _⟩ := reachable_view hW hs
  unfold activeRels
  rw [(sortBy_perm _ _).mem_iff, List.mem_filter, mem_neighborRels_ref h]
  simp only [h.link]

/-- Sorting the elements of one relationship. -/
theorem sortedElems_spec {T : Texts} {O : Onto} (hW : O.WF) {s : Sess} (hs : Reachable O s) (x : Uid) (r : Rel) :
    (∃ es, sortedElems T O s x r = .ok es ∧ es.Nodup ∧
      (∀ y r', (y, r') ∈ es ↔ (⟨x, .rel r', .cuds y⟩ : Triple) ∈ s.g ∧ O.subRel r' r = true)) ∧
      (¬ ∃ a ra b rb ca cb, (⟨x, .rel ra, .cuds a⟩ : Triple) ∈ s.g ∧ O.subRel ra r = true ∧ (⟨x, .rel rb, .cuds b⟩ : Triple) ∈ s.g ∧
        O.subRel rb r = true ∧ T.rel ra = T.rel rb ∧ (⟨a, .type, .cls ca⟩ : Triple) ∈ s.g ∧ (⟨b, .type, .cls cb⟩ : Triple) ∈ s.g ∧
        T.cls (some ca) = T.cls (some cb) ∧ HasName T O s a ∧ ¬ HasName T O s b) ∨
    sortedElems T O s x r = .error .typeError ∧
      ∃ a ra b rb ca cb, (⟨x, .rel ra, .cuds a⟩ : Triple) ∈ s.g ∧ O.subRel ra r = true ∧ (⟨x, .rel rb, .cuds b⟩ : Triple) ∈ s.g ∧
        O.subRel rb r = true ∧ T.rel ra = T.rel rb ∧ (⟨a, .type, .cls ca⟩ : Triple) ∈ s.g ∧ (⟨b, .type, .cls cb⟩ : Triple) ∈ s.g ∧
        T.cls (some ca) = T.cls (some cb) ∧ HasName T O s a ∧ ¬ HasName T O s b := by
  obtain ⟨l, h1, h2, h3⟩ := get_with_rel_once hW hs x (some r)
  have h3' : ∀ y r', (y, r') ∈ l ↔ (⟨x, .rel r', .cuds y⟩ : Triple) ∈ s.g ∧ O.subRel r' r = true := by
    intro y r'; rw [h3]; simp
  obtain ⟨A, h, hco⟩ := reachable_view hW hs
  have hcls : ∀ y r', (y, r') ∈ l → ∃ c, A.cls y = some c := by
    intro y r' hy
    have := hco.dst _ _ _ ((h.link _ _ _).1 ((h3' y r').1 hy).1)
    cases hc : A.cls y with
    | none => exact absurd hc this
    | some c => exact ⟨c, rfl⟩
  have hmix : l.any (fun a => l.any (mixed T O s a)) = true ↔
      ∃ a ra b rb ca cb, (⟨x, .rel ra, .cuds a⟩ : Triple) ∈ s.g ∧ O.subRel ra r = true ∧ (⟨x, .rel rb, .cuds b⟩ : Triple) ∈ s.g ∧
        O.subRel rb r = true ∧ T.rel ra = T.rel rb ∧ (⟨a, .type, .cls ca⟩ : Triple) ∈ s.g ∧ (⟨b, .type, .cls cb⟩ : Triple) ∈ s.g ∧
        T.cls (some ca) = T.cls (some cb) ∧ HasName T O s a ∧ ¬ HasName T O s b := by
    simp only [List.any_eq_true, mixed, Bool.and_eq_true, decide_eq_true_eq, bne_iff_ne, ne_eq]
    constructor
    · rintro ⟨⟨a, ra⟩, ha, ⟨b, rb⟩, hb, ⟨h4, h5⟩, h6⟩
      obtain ⟨ca, hca⟩ := hcls _ _ ha
      obtain ⟨cb, hcb⟩ := hcls _ _ hb
      rw [oclass_ref h, oclass_ref h, hca, hcb] at h4
      by_cases hna : HasName T O s a
      · refine ⟨a, ra, b, rb, ca, cb, ((h3' _ _).1 ha).1, ((h3' _ _).1 ha).2, ((h3' _ _).1 hb).1, ((h3' _ _).1 hb).2, h5, (h.type _ _).2 hca,
          (h.type _ _).2 hcb, h4, hna, fun hnb => h6 ?_⟩
        rw [(nameOf_isSome hW hs a).2 hna, (nameOf_isSome hW hs b).2 hnb]
      · refine ⟨b, rb, a, ra, cb, ca, ((h3' _ _).1 hb).1, ((h3' _ _).1 hb).2, ((h3' _ _).1 ha).1, ((h3' _ _).1 ha).2, h5.symm, (h.type _ _).2 hcb,
          (h.type _ _).2 hca, h4.symm, ?_, hna⟩
        rw [← nameOf_isSome hW hs] at hna ⊢
        cases hb' : (nameOf T O s b).isSome with
        | true => rfl
        | false => simp only at h6; rw [hb'] at h6; exact absurd (by simpa using hna) h6
    · rintro ⟨a, ra, b, rb, ca, cb, ha1, ha2, hb1, hb2, h5, h6, h7, h8, h9, h10⟩
      refine ⟨(a, ra), (h3' _ _).2 ⟨ha1, ha2⟩, (b, rb), (h3' _ _).2 ⟨hb1, hb2⟩, ⟨?_, h5⟩, ?_⟩
      · simp only
        rw [oclass_ref h, oclass_ref h, (h.type _ _).1 h6, (h.type _ _).1 h7]
        exact h8
      · simp only
        rw [← nameOf_isSome hW hs] at h9 h10
        rw [h9]
        exact fun e => h10 e.symm
  rw [← hmix]
  unfold sortedElems
  rw [h1]
  simp only
  split
  · rename_i hm; exact Or.inr ⟨rfl, hm⟩
  · rename_i hm
    refine Or.inl ⟨⟨_, rfl, ?_, ?_⟩, hm⟩
    · exact (sortBy_perm _ _).nodup_iff.2 h2
    · intro y r'; rw [(sortBy_perm _ _).mem_iff, h3']

theorem good_iff {T : Texts} {O : Onto} (hW : O.WF) {s : Sess} (hs : Reachable O s) (x : Uid) : Good T O s x ↔ ¬ Clash T O s x := by
  constructor
  · rintro hg ⟨r, y, a, ra, b, rb, ca, cb, h1, h2, hrest⟩
    obtain ⟨es, he⟩ := hg r ((mem_activeRels hW hs).2 ⟨⟨y, h2⟩, h1⟩)
    rcases sortedElems_spec (T := T) hW hs x r with ⟨_, hno⟩ | ⟨he', _⟩
    · exact hno ⟨a, ra, b, rb, ca, cb, hrest⟩
    · rw [he] at he'; cases he'
  · intro hc r hr
    obtain ⟨⟨y, hy⟩, hra⟩ := (mem_activeRels hW hs).1 hr
    rcases sortedElems_spec (T := T) hW hs x r with ⟨⟨es, he, _⟩, _⟩ | ⟨_, a, ra, b, rb, ca, cb, hrest⟩
    · exact ⟨es, he⟩
    · exact absurd ⟨r, y, a, ra, b, rb, ca, cb, hra, hy, hrest⟩ hc

theorem linksOf_ppItems {T : Texts} {O : Onto} (hW : O.WF) (hrefl : ∀ r, O.subRel r r = true) {s : Sess} (hs : Reachable O s) (x : Uid)
    (hg : Good T O s x) : (linksOf (ppItems T O s) x).Nodup ∧
      ∀ r y, (x, r, y) ∈ linksOf (ppItems T O s) x ↔ (⟨x, .rel r, .cuds y⟩ : Triple) ∈ s.g ∧ O.subRel r O.active = true := by
  have hnd : (activeRels T O s x).Nodup := (sortBy_perm _ _).nodup_iff.2 ((nodup_neighborRels _ _).filter _)
  have hlinks : ∀ rs, linksOf (fun z => relItems T O s z rs) x = rs.flatMap fun r => match sortedElems T O s x r with
      | .ok es => (es.filter (·.2 = r)).map fun e => (x, r, e.1)
      | .error _ => [] := by
    intro rs
    unfold linksOf relItems
    rw [List.flatMap_assoc]
    refine congrArg (fun f => rs.flatMap f) (funext fun r => ?_)
    cases sortedElems T O s x r with
    | error e => rfl
    | ok es =>
      simp only [elemItems, List.flatMap_map, List.map_cons, List.map_nil]
      induction es.filter (fun x => decide (x.2 = r)) with
      | nil => rfl
      | cons e l ih => rw [List.flatMap_cons, ih]; rfl
  have hone : ∀ r ∈ activeRels T O s x, ∃ es, sortedElems T O s x r = .ok es ∧ es.Nodup ∧
      ∀ y r', (y, r') ∈ es ↔ (⟨x, .rel r', .cuds y⟩ : Triple) ∈ s.g ∧ O.subRel r' r = true := by
    intro r hr
    obtain ⟨es, he⟩ := hg r hr
    rcases sortedElems_spec (T := T) hW hs x r with ⟨h1, _⟩ | ⟨he', _⟩
    · exact h1
    · rw [he] at he'; cases he'
  have heq : linksOf (ppItems T O s) x = linksOf (fun z => relItems T O s z (activeRels T O s x)) x := rfl
  rw [heq, hlinks]
  refine ⟨?_, ?_⟩
  · generalize activeRels T O s x = rs at hnd hone
    induction rs with
    | nil => simp
    | cons r rs ih =>
      rw [List.nodup_cons] at hnd
      rw [List.flatMap_cons, List.nodup_append]
      refine ⟨?_, ih hnd.2 (fun r hr => hone r (List.mem_cons_of_mem _ hr)), ?_⟩
      · obtain ⟨es, he, hn, _⟩ := hone r (by simp)
        rw [he]
        refine List.Pairwise.map (R := fun (a b : Uid × Rel) => a ≠ b ∧ a.2 = r ∧ b.2 = r) _ (fun a b hab he => hab.1 ?_) ?_
        · have := congrArg (fun p => p.2.2) he
          obtain ⟨a1, a2⟩ := a
          obtain ⟨b1, b2⟩ := b
          simp only at this hab
          rw [this, hab.2.1, hab.2.2]
        · rw [List.pairwise_filter]
          exact hn.imp fun hab ha hb => ⟨hab, by simpa using ha, by simpa using hb⟩
      · rintro a ha b hb rfl
        obtain ⟨r', hr', hb⟩ := List.mem_flatMap.1 hb
        cases h1 : sortedElems T O s x r with
        | error e => rw [h1] at ha; cases ha
        | ok es =>
          rw [h1] at ha
          cases h2 : sortedElems T O s x r' with
          | error e => rw [h2] at hb; cases hb
          | ok es' =>
            rw [h2] at hb
            obtain ⟨e, _, rfl⟩ := List.mem_map.1 ha
            obtain ⟨e', _, h4⟩ := List.mem_map.1 hb
            have : r' = r := congrArg (fun p => p.2.1) h4
            exact hnd.1 (this ▸ hr')
  · intro r y
    rw [List.mem_flatMap]
    constructor
    · rintro ⟨r0, hr0, h1⟩
      obtain ⟨es, he, _, hm⟩ := hone r0 hr0
      rw [he] at h1
      obtain ⟨⟨y', r'⟩, h2, h3⟩ := List.mem_map.1 h1
      rw [List.mem_filter] at h2
      have h4 : r' = r0 := by simpa using h2.2
      cases h3
      subst h4
      exact ⟨((hm _ _).1 h2.1).1, ((mem_activeRels hW hs).1 hr0).2⟩
    · rintro ⟨h1, h2⟩
      have hr := (mem_activeRels (T := T) hW hs).2 ⟨⟨y, h1⟩, h2⟩
      obtain ⟨es, he, _, hm⟩ := hone r hr
      refine ⟨r, hr, ?_⟩
      rw [he]
      exact List.mem_map.2 ⟨(y, r), List.mem_filter.2 ⟨(hm _ _).2 ⟨h1, hrefl r⟩, by simp⟩, rfl⟩

theorem ppItems_linked {T : Texts} {O : Onto} (hW : O.WF) {s : Sess} (hs : Reachable O s) (x : Uid) (it : List Rel × Uid)
    (h : it ∈ ppItems T O s x) : Linked O s (some O.active) x it.2 ∧ it.1 ≠ [] := by
  unfold ppItems relItems at h
  obtain ⟨r, hr, h1⟩ := List.mem_flatMap.1 h
  rcases sortedElems_spec (T := T) hW hs x r with ⟨⟨es, he, _, hm⟩, _⟩ | ⟨he, _⟩
  · rw [he] at h1
    obtain ⟨⟨y, r'⟩, h2, rfl⟩ := List.mem_map.1 h1
    rw [List.mem_filter] at h2
    have h3 : r' = r := by simpa using h2.2
    subst h3
    exact ⟨⟨r', ((hm _ _).1 h2.1).1, by rintro _ ⟨⟩; exact ((mem_activeRels hW hs).1 hr).2⟩, by simp⟩
  · rw [he] at h1; cases h1

section pp
variable {T : Texts} {O : Onto} (hW : O.WF) (hrefl : ∀ r, O.subRel r r = true) {s : Sess} (hs : Reachable O s) (root : Uid) (hroot : root ∈ s.reg)
  (fuel : Nat) (hf : s.reg.length + 1 ≤ fuel)
include hW hrefl hs hroot hf

/-- C75: `pretty_print` ends. It prints the details of every object that the root reaches over active relationships, once; it prints every active link
of these objects, once; what it marks as already printed was printed before (or is the root). -/
theorem pretty_print_exact (hc : ∀ x, Reaches O s (some O.active) root x → ¬ Clash T O s x) :
    ∃ ls, ppLines T O s fuel root = some (.ok ls) ∧
      (described ls).Nodup ∧ (∀ x, x ∈ described ls ↔ Reaches O s (some O.active) root x ∧ x ≠ root) ∧
      (shownLinks ls).Nodup ∧
      (∀ x r y, (x, r, y) ∈ shownLinks ls ↔
        Reaches O s (some O.active) root x ∧ (⟨x, .rel r, .cuds y⟩ : Triple) ∈ s.g ∧ O.subRel r O.active = true) ∧
      ∀ a ind y b, ls = a ++ ⟨ind, .already y⟩ :: b → y = root ∨ y ∈ described a := by
  have hgood : ∀ x, Reaches O s (some O.active) root x → Good T O s x := fun x hx => (good_iff hW hs x).2 (hc x hx)
  obtain ⟨es, V, hw, h1, h2, h3, h4⟩ := walk_exact hW hs (some O.active) (ppItems T O s) root
    (fun x hx => by simpa using linksOf_ppItems hW hrefl hs x (hgood x hx)) (fun x _ it hit => (ppItems_linked hW hs x it hit).2) hroot fuel hf
  obtain ⟨ag, _⟩ := ppSub_agree T O s (Reaches O s (some O.active) root) (fun x hx it hit => hx.tail (ppItems_linked hW hs x it hit).1) fuel root .refl
    "\n  ".toList []
  unfold ppLines
  generalize ppSub T O s fuel root "\n  ".toList [] = R at ag
  cases R with
  | none => have : walk (ppItems T O s) fuel root [] = none := ag; rw [hw] at this; cases this
  | some R =>
    cases R with
    | error e =>
      obtain ⟨x, hx, r, hr, he⟩ := ag
      obtain ⟨es, he'⟩ := hgood x hx r hr
      rw [he] at he'; cases he'
    | ok p =>
      obtain ⟨ls, v⟩ := p
      obtain ⟨ag1, _⟩ := ag
      rw [hw] at ag1
      simp only [Option.some.injEq, Prod.mk.injEq] at ag1
      obtain ⟨rfl, rfl⟩ := ag1
      have ht := (walk_truthful _ _ _ _ _ _ hw).1
      refine ⟨ls, rfl, ?_, ?_, ?_, ?_, ?_⟩
      · rw [described_eq]; exact (List.nodup_cons.1 h1).2
      · intro x
        rw [described_eq, ← h2]
        have := (List.nodup_cons.1 h1).1
        simp only [List.mem_cons]
        constructor
        · intro h; exact ⟨Or.inr h, by rintro rfl; exact this h⟩
        · rintro ⟨h | h, h'⟩
          · exact absurd h h'
          · exact h
      · rw [shownLinks_eq]; exact h3
      · intro x r y; rw [shownLinks_eq, h4]; simp
      · rintro a ind y b rfl
        have : Truthful [root] (a.filterMap Line.ev ++ .seen y :: b.filterMap Line.ev) := by
          rw [List.filterMap_append, List.filterMap_cons] at ht
          exact ht
        rw [described_eq]
        clear ht hw h1 h2 h3 h4
        have key : ∀ (e : List Ev) (v : List Uid), Truthful v (e ++ .seen y :: b.filterMap Line.ev) → y ∈ v ∨ y ∈ nodes e := by
          intro e
          induction e with
          | nil => intro v h; exact Or.inl h.1
          | cons c e ih =>
            intro v h
            cases c with
            | seen z => exact ih v h.2
            | node z =>
              rcases ih (z :: v) h with h | h
              · rcases List.mem_cons.1 h with rfl | h
                · exact Or.inr (by simp)
                · exact Or.inl h
              · exact Or.inr (by simp [h])
            | edge _ _ _ => exact ih v h
        simpa using key _ _ this

/-- C75: exactly if some printed object has the clash described above, `pretty_print` raises TypeError (and prints nothing). -/
theorem pretty_print_fails (x : Uid) (hx : Reaches O s (some O.active) root x) (hc : Clash T O s x) :
    ppLines T O s fuel root = some (.error .typeError) := by
  obtain ⟨ag, ag0⟩ := ppSub_agree T O s (Reaches O s (some O.active) root) (fun x hx it hit => hx.tail (ppItems_linked hW hs x it hit).1) fuel root .refl
    "\n  ".toList []
  have hclosed : ∀ x, x ∈ s.reg → ∀ y ∈ (ppItems T O s x).map (·.2), y ∈ s.reg := by
    intro x _ y hy
    obtain ⟨it, h1, rfl⟩ := List.mem_map.1 hy
    obtain ⟨r, h2, _⟩ := (ppItems_linked hW hs x it h1).1
    exact ((links_symmetric hW hs _ _ _).2 h2).2
  obtain ⟨⟨out, V⟩, hR⟩ := findAll_some (succ := fun z => (ppItems T O s z).map (·.2)) (crit := fun _ => true) s.reg hclosed fuel none root [] hroot
    (by have := left_le s.reg [root]; omega)
  have hk := findAll_none_ok fuel root [] out V (by simp) hR
  rw [findAll_walk] at hR
  unfold ppLines
  generalize ppSub T O s fuel root "\n  ".toList [] = R at ag ag0
  cases R with
  | none => have h' : walk (ppItems T O s) fuel root [] = none := ag; rw [h'] at hR; cases hR
  | some R =>
    cases R with
    | error e =>
      obtain ⟨z, _, r, _, he⟩ := ag
      rcases sortedElems_spec (T := T) hW hs z r with ⟨⟨es, he', _⟩, _⟩ | ⟨he', _⟩
      · rw [he] at he'; cases he'
      · rw [he] at he'; cases he'; rfl
    | ok p =>
      exfalso
      obtain ⟨ls, v⟩ := p
      obtain ⟨ag1, ag2⟩ := ag
      rw [ag1] at hR
      simp only [Option.map_some, Option.some.injEq, Prod.mk.injEq] at hR
      obtain ⟨rfl, rfl⟩ := hR
      have hg : ∀ z ∈ v, Good T O s z := by
        intro z hz
        have := (hk.out_mem z).2 ⟨hz, by simp, rfl⟩
        rcases List.mem_cons.1 this with rfl | h
        · exact ag0 _ rfl
        · exact ag2 z h
      have hall : ∀ z, Reaches O s (some O.active) root z → z ∈ v := by
        intro z hz
        induction hz with
        | refl => exact hk.root_mem
        | @tail z w _ hl ih =>
          refine hk.closed z ih (by simp) trivial w ?_
          obtain ⟨r, h1, h2⟩ := hl
          have := ((linksOf_ppItems hW hrefl hs z (hg z ih)).2 r w).2 ⟨h1, h2 _ rfl⟩
          obtain ⟨it, h3, h4⟩ := List.mem_flatMap.1 this
          obtain ⟨_, _, h5⟩ := List.mem_map.1 h4
          exact List.mem_map.2 ⟨it, h3, congrArg (fun p => p.2.2) h5⟩
      exact (good_iff hW hs x).1 (hg x (hall x hx)) hc

end pp

/-! ### Cuds2dot -/

/-- The objects of the node statements. -/
def nodeObjects (st : List Stmt) : List Uid := st.filterMap fun x => match x with
  | .node _ y _ => some y
  | _ => none

/-- The edge statements. -/
def edgeStmts (st : List Stmt) : List (Text × Text × Rel) := st.filterMap fun x => match x with
  | .edge a b r => some (a, b, r)
  | _ => none

theorem linksOf_dotItems {O : Onto} (hW : O.WF) {s : Sess} (hs : Reachable O s) (x : Uid) : (linksOf (dotItems O s) x).Nodup ∧
    (∀ r y, (x, r, y) ∈ linksOf (dotItems O s) x ↔ (⟨x, .rel r, .cuds y⟩ : Triple) ∈ s.g) ∧ ∀ it ∈ dotItems O s x, it.1 ≠ [] := by
  obtain ⟨A, h, hco⟩ := reachable_view hW hs
  obtain ⟨l, h1, hnd, h3⟩ := get_by_filter h hco x (some O.relationship) none
  have hch : children O s (some O.relationship) x = l := by
    unfold children; rw [h1]; simp [List.filterMap_map]
  have hl : ∀ y, y ∈ children O s (some O.relationship) x ↔ ∃ r, (⟨x, .rel r, .cuds y⟩ : Triple) ∈ s.g := by
    intro y
    rw [mem_children hW hs]
    exact ⟨fun ⟨r, hr, _⟩ => ⟨r, hr⟩, fun ⟨r, hr⟩ => ⟨r, hr, by rintro _ ⟨⟩; exact hW.top _⟩⟩
  have heq : linksOf (dotItems O s) x =
      (children O s (some O.relationship) x).flatMap fun y => (relationshipsBetween s x y).map fun r => (x, r, y) := by
    unfold linksOf dotItems
    rw [List.flatMap_map]
  refine ⟨?_, ?_, ?_⟩
  · rw [heq, hch]
    clear hch h1 hl heq h3
    induction l with
    | nil => simp
    | cons y l ih =>
      rw [List.nodup_cons] at hnd
      rw [List.flatMap_cons, List.nodup_append]
      refine ⟨List.Pairwise.map _ (fun a b hab he => hab (congrArg (fun p => p.2.1) he)) (relationships_between x y).1, ih hnd.2, ?_⟩
      rintro a ha b hb rfl
      obtain ⟨_, _, rfl⟩ := List.mem_map.1 ha
      obtain ⟨z, hz, hb⟩ := List.mem_flatMap.1 hb
      obtain ⟨_, _, h2⟩ := List.mem_map.1 hb
      have : z = y := congrArg (fun p => p.2.2) h2
      exact hnd.1 (this ▸ hz)
  · intro r y
    rw [heq, List.mem_flatMap]
    constructor
    · rintro ⟨z, hz, h2⟩
      obtain ⟨r', h3, h4⟩ := List.mem_map.1 h2
      simp only [Prod.mk.injEq, true_and] at h4
      obtain ⟨rfl, rfl⟩ := h4
      exact ((relationships_between x _).2 _).1 h3
    · intro h2
      exact ⟨y, (hl y).2 ⟨r, h2⟩, List.mem_map.2 ⟨r, ((relationships_between x y).2 r).2 h2, rfl⟩⟩
  · intro it hit
    obtain ⟨y, hy, rfl⟩ := List.mem_map.1 hit
    obtain ⟨r, hr⟩ := (hl y).1 hy
    exact List.ne_nil_of_mem (((relationships_between x y).2 r).2 hr)

theorem nodeObjects_stmts (root : Uid) (es : List Ev) : nodeObjects (es.filterMap (Ev.stmt root)) = nodes es := by
  unfold nodeObjects nodes
  rw [List.filterMap_filterMap]
  refine congrArg (fun f => es.filterMap f) (funext fun e => ?_)
  cases e <;> rfl

theorem edgeStmts_stmts (root : Uid) (es : List Ev) :
    edgeStmts (es.filterMap (Ev.stmt root)) = (edges es).map fun e => (shorten e.1, shorten e.2.2, e.2.1) := by
  unfold edgeStmts edges
  rw [List.filterMap_filterMap, List.map_filterMap]
  refine congrArg (fun f => es.filterMap f) (funext fun e => ?_)
  cases e <;> rfl

section dot
variable {O : Onto} (hW : O.WF) {s : Sess} (hs : Reachable O s) (root : Uid) (hroot : root ∈ s.reg)
  (fuel : Nat) (hf : s.reg.length + 1 ≤ fuel)
include hW hs hroot hf

/-- C76: the drawing has one node for every object that the root reaches and one edge for every link of these objects, named by the short names of
the objects. -/
theorem dot_exact :
    ∃ st, dot O s fuel root = some st ∧
      (nodeObjects st).Nodup ∧ (∀ x, x ∈ nodeObjects st ↔ Reaches O s none root x) ∧
      (∀ n x b, Stmt.node n x b ∈ st → n = shorten x ∧ (b = true ↔ shorten x = shorten root)) ∧
      ∃ L : List (Uid × Rel × Uid), L.Nodup ∧
        (∀ x r y, (x, r, y) ∈ L ↔ Reaches O s none root x ∧ (⟨x, .rel r, .cuds y⟩ : Triple) ∈ s.g) ∧
        edgeStmts st = L.map fun e => (shorten e.1, shorten e.2.2, e.2.1) := by
  obtain ⟨es, V, hw, h1, h2, h3, h4⟩ := walk_exact hW hs none (dotItems O s) root
    (fun x _ => by simpa using ⟨(linksOf_dotItems hW hs x).1, (linksOf_dotItems hW hs x).2.1⟩) (fun x _ => (linksOf_dotItems hW hs x).2.2) hroot fuel hf
  have hn : nodeObjects (addNode root root :: es.filterMap (Ev.stmt root)) = root :: nodes es := by
    rw [← nodeObjects_stmts root]; rfl
  refine ⟨_, by rw [dot, hw]; rfl, ?_, ?_, ?_, edges es, h3, ?_, ?_⟩
  · rw [hn]; exact h1
  · intro x; rw [hn]; exact h2 x
  · intro n x b h
    have key : ∀ y, Stmt.node n x b = addNode root y → n = shorten x ∧ (b = true ↔ shorten x = shorten root) := by
      intro y hy
      unfold addNode at hy
      injection hy with e1 e2 e3
      subst e2
      exact ⟨e1, by rw [e3, decide_eq_true_eq]⟩
    rcases List.mem_cons.1 h with h | h
    · exact key _ h
    · obtain ⟨e, _, he⟩ := List.mem_filterMap.1 h
      cases e with
      | edge a r b => unfold Ev.stmt at he; injection he with he; cases he
      | node y => exact key y (Option.some.inj he).symm
      | seen y => unfold Ev.stmt at he; cases he
  · intro x r y; rw [h4]; simp
  · exact edgeStmts_stmts root es

/-- C76: if the reached objects have different short names, the drawing is the structure: node names are unique, only the root is drawn as the root, no
edge is doubled, and there is an edge between two drawn nodes exactly if their objects are linked so. -/
theorem dot_faithful (hinj : ∀ x y, Reaches O s none root x → Reaches O s none root y → shorten x = shorten y → x = y) :
    ∃ st, dot O s fuel root = some st ∧ ((nodeObjects st).map shorten).Nodup ∧ (edgeStmts st).Nodup ∧
      (∀ n x b, Stmt.node n x b ∈ st → (b = true ↔ x = root)) ∧
      ∀ x r y, Reaches O s none root x → Reaches O s none root y →
        ((shorten x, shorten y, r) ∈ edgeStmts st ↔ (⟨x, .rel r, .cuds y⟩ : Triple) ∈ s.g) := by
  obtain ⟨st, h0, h1, h2, h3, L, h4, h5, h6⟩ := dot_exact hW hs root hroot fuel hf
  have hto : ∀ x r y, (x, r, y) ∈ L → Reaches O s none root x ∧ Reaches O s none root y := by
    intro x r y h
    obtain ⟨a, b⟩ := (h5 x r y).1 h
    exact ⟨a, a.tail ⟨r, b, by simp⟩⟩
  refine ⟨st, h0, ?_, ?_, ?_, ?_⟩
  · refine List.Pairwise.map (R := fun a b => a ≠ b ∧ Reaches O s none root a ∧ Reaches O s none root b) _
      (fun a b hab he => hab.1 (hinj a b hab.2.1 hab.2.2 he)) ?_
    exact h1.imp_of_mem fun ha hb hab => ⟨hab, (h2 _).1 ha, (h2 _).1 hb⟩
  · rw [h6]
    refine List.Pairwise.map (R := fun a b => a ≠ b ∧ a ∈ L ∧ b ∈ L) _ ?_ (h4.imp_of_mem fun ha hb hab => ⟨hab, ha, hb⟩)
    rintro ⟨a1, a2, a3⟩ ⟨b1, b2, b3⟩ ⟨hab, ha, hb⟩ he
    simp only [Prod.mk.injEq] at he
    obtain ⟨c1, c2⟩ := hto _ _ _ ha
    obtain ⟨d1, d2⟩ := hto _ _ _ hb
    exact hab (by rw [hinj a1 b1 c1 d1 he.1, hinj a3 b3 c2 d2 he.2.1, he.2.2])
  · intro n x b h
    rw [(h3 n x b h).2]
    have hx : x ∈ nodeObjects st := List.mem_filterMap.2 ⟨_, h, rfl⟩
    exact ⟨fun he => hinj x root ((h2 x).1 hx) .refl he, fun he => by rw [he]⟩
  · intro x r y hx hy
    rw [h6, List.mem_map]
    constructor
    · rintro ⟨⟨a, r', b⟩, h, he⟩
      simp only [Prod.mk.injEq] at he
      obtain ⟨c1, c2⟩ := hto _ _ _ h
      obtain ⟨e1, e2, rfl⟩ := he
      have := hinj a x c1 hx e1
      have := hinj b y c2 hy e2
      subst a b
      exact ((h5 _ _ _).1 h).2
    · intro h
      exact ⟨(x, r, y), (h5 _ _ _).2 ⟨hx, h⟩, rfl⟩

end dot

/-! ### Short names -/

theorem toHex_add (a b n : Nat) : Iri.toHex (a + b) n = Iri.toHex a (n / 16 ^ b) ++ Iri.toHex b n := by
  induction b generalizing n with
  | zero => simp [Iri.toHex]
  | succ b ih =>
    have step : ∀ k m, Iri.toHex (k + 1) m = Iri.toHex k (m / 16) ++ [Iri.hexDigit (m % 16)] := fun _ _ => rfl
    rw [← Nat.add_assoc, step, step, ih, List.append_assoc, Nat.div_div_eq_div_mul, Nat.pow_succ, Nat.mul_comm 16]

theorem toHex_inj {k a b : Nat} (h : Iri.toHex k a = Iri.toHex k b) : a % 16 ^ k = b % 16 ^ k := by
  have h1 := (Iri.digits_toHex k a).1
  rw [h, (Iri.digits_toHex k b).1] at h1
  exact (Option.some.inj h1).symm

theorem toHex_mod (k n : Nat) : Iri.toHex k (n % 16 ^ k) = Iri.toHex k n := by
  induction k generalizing n with
  | zero => rfl
  | succ k ih =>
    unfold Iri.toHex
    have h1 : n % 16 ^ (k + 1) / 16 = n / 16 % 16 ^ k := by
      rw [Nat.pow_succ, Nat.mul_comm, Nat.mod_mul_right_div_self]
    have h2 : n % 16 ^ (k + 1) % 16 = n % 16 := by
      rw [Nat.pow_succ]
      exact Nat.mod_mul_left_mod n (16 ^ k) 16
    rw [h1, h2, ih]

theorem shorten_eq (u : Nat) : shorten u = Iri.toHex 8 (u / 16 ^ 24) ++ "...".toList ++ Iri.toHex 3 u := by
  have h1 : Iri.toHex 32 u = Iri.toHex 8 (u / 16 ^ 24) ++ Iri.toHex 24 u := toHex_add 8 24 u
  have h2 : Iri.toHex 32 u = Iri.toHex 29 (u / 16 ^ 3) ++ Iri.toHex 3 u := toHex_add 29 3 u
  have hl : (Iri.toHex 32 u).length = 32 := Iri.toHex_length _ _
  have ht : (Iri.uuidStr u).take 8 = Iri.toHex 8 (u / 16 ^ 24) := by
    unfold Iri.uuidStr
    have h8 : ((Iri.toHex 32 u).take 8).length = 8 := by rw [List.length_take, hl]; rfl
    simp only [List.append_assoc]
    rw [List.take_append_of_le_length (by rw [h8]; exact Nat.le_refl 8), List.take_take, h1,
      List.take_append_of_le_length (by rw [Iri.toHex_length]; exact Nat.le_refl 8)]
    exact List.take_of_length_le (by rw [Iri.toHex_length]; exact Nat.le_refl 8)
  have hlen : (Iri.uuidStr u).length = 36 := by
    unfold Iri.uuidStr
    simp only [List.length_append, List.length_cons, List.length_take, List.length_drop, hl]
    omega
  have hd : (Iri.uuidStr u).drop 33 = Iri.toHex 3 u := by
    have hsplit : Iri.uuidStr u = ((Iri.toHex 32 u).take 8 ++ '-' :: ((Iri.toHex 32 u).drop 8).take 4 ++ '-' :: ((Iri.toHex 32 u).drop 12).take 4 ++
        '-' :: ((Iri.toHex 32 u).drop 16).take 4 ++ ['-']) ++ (Iri.toHex 32 u).drop 20 := by
      unfold Iri.uuidStr; simp
    rw [hsplit, List.drop_append]
    have h24 : ((Iri.toHex 32 u).take 8 ++ '-' :: ((Iri.toHex 32 u).drop 8).take 4 ++ '-' :: ((Iri.toHex 32 u).drop 12).take 4 ++
        '-' :: ((Iri.toHex 32 u).drop 16).take 4 ++ ['-']).length = 24 := by
      simp only [List.length_append, List.length_cons, List.length_take, List.length_drop, hl, List.length_nil]
      omega
    rw [h24, List.drop_of_length_le (by rw [h24]; omega), List.nil_append, List.drop_drop, h2,
      List.drop_append, List.drop_of_length_le (by rw [Iri.toHex_length]; omega), Iri.toHex_length]
    rfl
  unfold shorten
  simp only [hlen, ht]
  rw [show (36 : Nat) - 3 = 33 from rfl, hd]

/-- C76: two objects have the same short name exactly if the first 32 and the last 12 bits of their uids agree. -/
theorem same_short_name (u v : Nat) (hu : u < 2 ^ 128) (hv : v < 2 ^ 128) :
    shorten u = shorten v ↔ u / 2 ^ 96 = v / 2 ^ 96 ∧ u % 2 ^ 12 = v % 2 ^ 12 := by
  rw [shorten_eq, shorten_eq]
  have e1 : (16 : Nat) ^ 24 = 2 ^ 96 := by decide
  have e2 : (16 : Nat) ^ 3 = 2 ^ 12 := by decide
  have e3 : (16 : Nat) ^ 8 = 2 ^ 32 := by decide
  constructor
  · intro h
    simp only [List.append_assoc] at h
    obtain ⟨h1, h2⟩ := List.append_inj h (by rw [Iri.toHex_length, Iri.toHex_length])
    have h3 := List.append_cancel_left h2
    have h4 := toHex_inj h1
    have h5 := toHex_inj h3
    rw [e1, e3] at h4
    rw [e2] at h5
    refine ⟨?_, h5⟩
    rwa [Nat.mod_eq_of_lt, Nat.mod_eq_of_lt] at h4
    · rw [Nat.div_lt_iff_lt_mul (by decide)]; exact hv
    · rw [Nat.div_lt_iff_lt_mul (by decide)]; exact hu
  · rintro ⟨h1, h2⟩
    rw [e1, h1, ← toHex_mod 3 u, ← toHex_mod 3 v, e2, h2]

end Osp.Show
