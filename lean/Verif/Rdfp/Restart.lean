import Verif.Rdfp.Props
/-!
# The table of namespaces survives a restart (C72)
-/
namespace Osp.Rdfp
open Osp.Names (lower Reg Fits)
open Osp.Install (look)

/-! ### Specification -/

/-- The text fits into a field of `namespaces.txt`. -/
def Field (t : Text) : Prop := '\t' ∉ t ∧ '\n' ∉ t ∧ '\r' ∉ t

/-- The namespaces of a graph into which a stored graph was read: those of a new graph and some of the stored ones, as they occur in the header of the file (rdflib binds them
without overriding). -/
def Header (b b0 : Binds) : Prop := ∃ l : List (Text × Text), (∀ e ∈ l, b.Named e.1 e.2) ∧ b0 = l.foldl (fun b e => b.bind e.1 e.2 false) Binds.new

/-! ### Lemmas -/

theorem universal_id : ∀ t : Text, '\r' ∉ t → universal t = t
  | [], _ => rfl
  | c :: t, h => by
    have hc : c ≠ '\r' := fun e => h (by simp [e])
    have ht := universal_id t (fun k => h (by simp [k]))
    unfold universal
    split
    · rename_i e; cases e
    · rename_i e; injection e with e1 e2; exact absurd e1 hc
    · rename_i e; injection e with e1 e2; subst e1; subst e2
      rw [if_neg hc, ht]

theorem splitOn_lines : ∀ l : List Text, (∀ x ∈ l, '\n' ∉ x) → splitOn '\n' (l.flatMap (fun x => x ++ ['\n'])) = l ++ [[]]
  | [], _ => rfl
  | x :: l, h => by
    rw [List.flatMap_cons, List.append_assoc, List.singleton_append, splitOn_append _ _ _ (h x (by simp)), splitOn_lines l (fun y hy => h y (by simp [hy]))]
    rfl

theorem linesOf_write {b : Binds} (h : ∀ p i, b.Named p i → Field p ∧ Field i) : linesOf (writeNamespaces b) = b.ns.map (fun e => e.1 ++ '\t' :: e.2) := by
  have e1 : writeNamespaces b = (b.ns.map (fun e => e.1 ++ '\t' :: e.2)).flatMap (fun x => x ++ ['\n']) := by
    unfold writeNamespaces
    rw [List.flatMap_map]
    rfl
  have hr : '\r' ∉ writeNamespaces b := by
    unfold writeNamespaces
    rw [List.mem_flatMap]
    rintro ⟨e, he, hl⟩
    obtain ⟨h1, h2⟩ := h e.1 e.2 he
    simp only [line, List.append_assoc, List.cons_append, List.mem_append, List.mem_cons, List.not_mem_nil, or_false] at hl
    rcases hl with hl | hl | hl | hl
    · exact h1.2.2 hl
    · exact absurd hl (by decide)
    · exact h2.2.2 hl
    · exact absurd hl (by decide)
  unfold linesOf
  rw [universal_id _ hr, e1, splitOn_lines]
  · simp
  · intro x hx
    obtain ⟨e, he, rfl⟩ := List.mem_map.1 hx
    obtain ⟨h1, h2⟩ := h e.1 e.2 he
    simp only [List.mem_append, List.mem_cons, not_or]
    exact ⟨h1.2.1, by decide, h2.2.1⟩

theorem readLine_ok {p i : Text} (hp : Field p) (hi : Field i) : readLine (p ++ '\t' :: i) = .ok (p, i) := by
  unfold readLine
  rw [splitOn_append _ _ _ hp.1, splitOn_none _ _ hi.1]

theorem bindLines_ok : ∀ (l : List (Text × Text)) (b0 : Binds), (∀ e ∈ l, Field e.1 ∧ Field e.2) →
    bindLines b0 (l.map (fun e => e.1 ++ '\t' :: e.2)) = (l.foldl (fun b e => b.bind e.1 e.2) b0, none)
  | [], b0, _ => rfl
  | e :: l, b0, h => by
    rw [List.map_cons, bindLines, readLine_ok (h e (by simp)).1 (h e (by simp)).2]
    simp only
    rw [bindLines_ok l _ (fun x hx => h x (by simp [hx])), List.foldl_cons]

theorem named_ne {b : Binds} (h : b.Reached) {p i : Text} (hp : b.Named p i) : i ≠ [] := h.ok.nonempty p i (h.ok.named.1 hp)

/-- Binding pairs of `b` to a part of `b` adds exactly them. -/
theorem foldl_part {b : Binds} (h : b.Reached) (l : List (Text × Text)) : ∀ b0 : Binds, b0.Reached → (∀ p i, b0.Named p i → b.Named p i) → (∀ e ∈ l, b.Named e.1 e.2) →
    (l.foldl (fun b e => b.bind e.1 e.2) b0).Reached ∧ ∀ p i, (l.foldl (fun b e => b.bind e.1 e.2) b0).Named p i ↔ b0.Named p i ∨ (p, i) ∈ l := by
  induction l with
  | nil => intro b0 h0 hs hl; exact ⟨h0, fun p i => by simp⟩
  | cons e l ih =>
    intro b0 h0 hs hl
    have he := hl e (by simp)
    have hne := named_ne h he
    obtain ⟨q, hq, hb⟩ := bind_exact h0 e.1 e.2 hne
    have hqe : q = e.1 := by
      rcases hq with ⟨_, rfl⟩ | ⟨⟨j, hj, hne⟩, _⟩
      · rfl
      · exact absurd (name_unique h (hs _ _ hj) he) hne
    subst hqe
    obtain ⟨r1, r2⟩ := ih (b0.bind e.1 e.2) (.bind b0 e.1 e.2 true h0 hne) (fun p i hp => by
      rw [hb] at hp
      rcases hp with hp | ⟨rfl, rfl⟩
      · exact hs p i hp
      · exact he) (fun x hx => hl x (by simp [hx]))
    refine ⟨r1, fun p i => ?_⟩
    rw [List.foldl_cons, r2, hb, List.mem_cons, or_assoc]
    constructor
    · rintro (h | ⟨rfl, rfl⟩ | h)
      · exact Or.inl h
      · exact Or.inr (Or.inl rfl)
      · exact Or.inr (Or.inr h)
    · rintro (h | h | h)
      · exact Or.inl h
      · exact Or.inr (Or.inl ⟨congrArg Prod.fst h, congrArg Prod.snd h⟩)
      · exact Or.inr (Or.inr h)

theorem new_within {b : Binds} (h : b.Reached) : ∀ p i, Binds.new.Named p i → b.Named p i := by
  induction h with
  | new => exact fun _ _ h => h
  | bind b p i o hb hi ih => exact fun q j hq => names_keep_iri hb (ih q j hq) p i hi o

theorem header_fold {b : Binds} (h : b.Reached) (l : List (Text × Text)) : ∀ b0 : Binds, b0.Reached → (∀ p i, b0.Named p i → b.Named p i) → (∀ e ∈ l, b.Named e.1 e.2) →
    (l.foldl (fun b e => b.bind e.1 e.2 false) b0).Reached ∧ ∀ p i, (l.foldl (fun b e => b.bind e.1 e.2 false) b0).Named p i → b.Named p i := by
  induction l with
  | nil => intro b0 h0 hs _; exact ⟨h0, hs⟩
  | cons e l ih =>
    intro b0 h0 hs hl
    have he := hl e (by simp)
    have hne := named_ne h he
    apply ih (b0.bind e.1 e.2 false) (.bind b0 e.1 e.2 false h0 hne) _ (fun x hx => hl x (by simp [hx]))
    intro p i hp
    rcases bind_cases h0.ok hne false (p := e.1) with ⟨q, hq, h1⟩ | ⟨h1, _⟩
    · have hqe : q = e.1 := by
        rcases hq with ⟨_, rfl⟩ | ⟨⟨j, hj, hne⟩, _⟩
        · rfl
        · exact absurd (name_unique h (hs _ _ hj) he) hne
      subst hqe
      rw [h1.ok.named, h1.look] at hp
      by_cases e1 : p = e.1
      · rw [if_pos e1] at hp; cases hp; rw [e1]; exact he
      · rw [if_neg e1] at hp; exact hs p i (h0.ok.named.2 hp)
    · rw [h1] at hp; exact hs p i hp

/-! ### C72 -/

/-- **C72.** The table of namespaces is read back as it was written: after a restart every name stands for the IRI it stood for, and there are no other names, whatever the header of the graph
file has bound before. -/
theorem restart_names_partial {b b0 : Binds} (h : b.Reached) (hf : ∀ p i, b.Named p i → Field p ∧ Field i) (hh : Header b b0) :
    ∃ b', loadNamespaces b0 (writeNamespaces b) = (b', none) ∧ b'.Reached ∧ ∀ p i, b'.Named p i ↔ b.Named p i := by
  obtain ⟨l, hl, rfl⟩ := hh
  obtain ⟨h0, hs⟩ := header_fold h l Binds.new .new (new_within h) hl
  obtain ⟨r1, r2⟩ := foldl_part h b.ns _ h0 hs (fun e he => he)
  refine ⟨_, ?_, r1, fun p i => ?_⟩
  · unfold loadNamespaces
    rw [linesOf_write hf, bindLines_ok _ _ (fun e he => hf e.1 e.2 he)]
  · rw [r2]
    exact ⟨fun x => x.elim (hs p i) id, Or.inr⟩

/-- **C72.** Namespaces are found by name as before the restart, if the names differ in more than upper and lower case. -/
theorem restart_registry {b b' : Binds} (hb : ∀ p i, b'.Named p i ↔ b.Named p i) (R R' : Reg) (hR : R.binds = b.ns) (hR' : R'.binds = b'.ns) (hl : R'.byLabel = R.byLabel)
    (hu : ∀ p i q j, b.Named p i → b.Named q j → lower p = lower q → i = j) (n : Text) : R'.update.get n = R.update.get n := by
  have key : ∀ (R : Reg) (b : Binds), R.binds = b.ns → (∀ p i q j, b.Named p i → b.Named q j → lower p = lower q → i = j) →
      ∀ i, R.update.find (lower n) = some i ↔ ∃ p, b.Named p i ∧ lower p = lower n := by
    intro R b hR hu i
    have hfind : ∀ v, (R.binds.map (fun b => (lower b.1, b.2))).reverse.find? (fun b => b.1 = lower n) = some v → ∃ p, b.Named p v.2 ∧ lower p = lower n := by
      intro v hv
      have h1 := List.mem_of_find?_eq_some hv
      have h2 := List.find?_some hv
      rw [List.mem_reverse, List.mem_map] at h1
      obtain ⟨c, hc, rfl⟩ := h1
      rw [hR] at hc
      exact ⟨c.1, hc, by simpa using h2⟩
    unfold Reg.find Reg.update
    dsimp only
    constructor
    · intro h
      rw [Option.map_eq_some_iff] at h
      obtain ⟨v, hv, rfl⟩ := h
      exact hfind v hv
    · rintro ⟨p, hp, hlp⟩
      have hs : ((R.binds.map (fun b => (lower b.1, b.2))).reverse.find? (fun b => b.1 = lower n)).isSome := by
        rw [List.find?_isSome]
        exact ⟨(lower p, i), by rw [List.mem_reverse, List.mem_map]; exact ⟨(p, i), by rw [hR]; exact hp, rfl⟩, by simp [hlp]⟩
      obtain ⟨v, hv⟩ := Option.isSome_iff_exists.1 hs
      obtain ⟨q, hq, hlq⟩ := hfind v hv
      rw [hv, Option.map_some, hu q v.2 p i hq hp (by rw [hlq, hlp])]
  have h1 := key R b hR hu
  have h2 := key R' b' hR' (fun p i q j hp hq => hu p i q j ((hb _ _).1 hp) ((hb _ _).1 hq))
  have hfind : R'.update.find (lower n) = R.update.find (lower n) := by
    apply Option.ext
    intro i
    rw [h1, h2]
    exact ⟨fun ⟨p, a, c⟩ => ⟨p, (hb _ _).1 a, c⟩, fun ⟨p, a, c⟩ => ⟨p, (hb _ _).2 a, c⟩⟩
  unfold Reg.get
  rw [hfind]
  cases R.update.find (lower n) with
  | none => rfl
  | some i =>
    have : R'.update.byLabel = R.update.byLabel := hl
    simp only [Reg.mkNs, this]

/-- **C72.** An IRI belongs to the same namespace as before the restart, if only one of the bound namespaces fits. -/
theorem restart_resolve {b b' : Binds} (hb : ∀ p i, b'.Named p i ↔ b.Named p i) (R R' : Reg) (hR : R.binds = b.ns) (hR' : R'.binds = b'.ns) (iri : Text)
    (hu : ∀ x ∈ b.ns, ∀ y ∈ b.ns, Fits x iri → Fits y iri → x = y) : R'.resolve iri = R.resolve iri := by
  by_cases h : ∃ x ∈ R.binds, Fits x iri
  · obtain ⟨x, hx, hfx⟩ := h
    have h' : ∃ y ∈ R'.binds, Fits y iri := ⟨x, by rw [hR']; rw [hR] at hx; exact (hb x.1 x.2).2 hx, hfx⟩
    obtain ⟨f1, l1, r1, e1, _⟩ := Osp.Names.bound_namespace_used R iri ⟨x, hx, hfx⟩
    obtain ⟨f2, l2, r2, e2, _⟩ := Osp.Names.bound_namespace_used R' iri h'
    have m1 : R.resolve iri ∈ b.ns := by rw [← hR, e1]; simp
    have m2 : R'.resolve iri ∈ b'.ns := by rw [← hR', e2]; simp
    exact hu _ ((hb _ _).1 m2) _ m1 f2 f1
  · have h1 : ∀ x ∈ R.binds, ¬ Fits x iri := fun x hx hf => h ⟨x, hx, hf⟩
    have h2 : ∀ x ∈ R'.binds, ¬ Fits x iri := fun x hx => h1 x (by rw [hR]; rw [hR'] at hx; exact (hb x.1 x.2).1 hx)
    rw [Osp.Names.resolve_unbound R iri h1, Osp.Names.resolve_unbound R' iri h2]

end Osp.Rdfp
