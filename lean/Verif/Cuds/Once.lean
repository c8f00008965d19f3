import Verif.Cuds.Props
/-!
# `get(return_rel=True)` returns every pair once (C19)
-/
namespace Osp.Cuds

/-- The relationships of a key are a set. -/
def Mapping.Sets (m : Mapping) : Prop := ∀ e ∈ m, e.2.Nodup

theorem Mapping.sets_insert {m : Mapping} {u : Uid} {r : Rel} (h : m.Sets) : (m.insert u r).Sets := by
  induction m with
  | nil => intro e he; simp only [Mapping.insert, List.mem_singleton] at he; subst he; simp
  | cons e m ih =>
    obtain ⟨u', rs⟩ := e
    have hrs : rs.Nodup := h (u', rs) (by simp)
    unfold Mapping.insert
    split
    · intro e he
      rcases List.mem_cons.1 he with rfl | he
      · simp only
        split
        · exact hrs
        · rename_i hr; rw [List.nodup_append]; exact ⟨hrs, by simp, by simp only [List.mem_singleton]; rintro a ha b rfl rfl; exact hr ha⟩
      · exact h e (List.mem_cons_of_mem _ he)
    · intro e he
      rcases List.mem_cons.1 he with rfl | he
      · exact hrs
      · exact ih (fun e he => h e (List.mem_cons_of_mem _ he)) e he

theorem byOclassInner_sets (O : Onto) (g : Graph) (oc : Option Cls) (r : Rel) (us : List Uid) (m : Mapping) (h : m.Sets) :
    (byOclassInner O g oc r us m).Sets := by
  induction us generalizing m with
  | nil => exact h
  | cons u us ih =>
    unfold byOclassInner
    apply ih
    split
    · exact Mapping.sets_insert h
    · exact h

theorem getRaw_sets {O : Onto} {g : Graph} {self : Uid} {rel : Option Rel} {oc : Option Cls} {us : List (Option Uid)} {m : Mapping}
    (h : getRaw O g self [] rel oc = .ok (us, m)) : m.Sets := by
  simp only [getRaw, ne_eq, not_true_eq_false, false_and, if_false, getByOclass] at h
  split at h
  · cases h; intro e he; cases he
  · injection h with h
    injection h with _ h
    subst h
    generalize considerRels O g self rel = rels
    have : ∀ (m : Mapping), m.Sets → (rels.foldl (fun m r => byOclassInner O g oc r (targets g self r) m) m).Sets := by
      induction rels with
      | nil => intro m hm; exact hm
      | cons r rels ih => intro m hm; exact ih _ (byOclassInner_sets _ _ _ _ _ _ hm)
    exact this [] (by intro e he; cases he)

theorem cat_nodup (f : Option Uid → Except PyErr (List (Uid × Rel))) (us : List (Option Uid)) (hn : us.Nodup)
    (hok : ∀ o ∈ us, ∀ l, f o = .ok l → l.Nodup ∧ ∀ p ∈ l, o = some p.1) (L : List (Uid × Rel)) (h : getWithRel.cat (us.map f) = .ok L) :
    L.Nodup ∧ ∀ p ∈ L, some p.1 ∈ us := by
  induction us generalizing L with
  | nil => simp only [List.map_nil, getWithRel.cat] at h; cases h; simp
  | cons o us ih =>
    rw [List.map_cons] at h
    cases hf : f o with
    | error e => rw [hf] at h; simp [getWithRel.cat] at h
    | ok l =>
      rw [hf] at h
      simp only [getWithRel.cat] at h
      cases hc : getWithRel.cat (us.map f) with
      | error e => rw [hc] at h; cases h
      | ok L' =>
        rw [hc] at h
        cases h
        rw [List.nodup_cons] at hn
        obtain ⟨i1, i2⟩ := ih hn.2 (fun o' ho' => hok o' (List.mem_cons_of_mem _ ho')) L' hc
        obtain ⟨j1, j2⟩ := hok o (by simp) l hf
        refine ⟨?_, ?_⟩
        · rw [List.nodup_append]
          refine ⟨j1, i1, ?_⟩
          rintro p hp q hq rfl
          exact hn.1 (j2 p hp ▸ i2 p hq)
        · intro p hp
          rcases List.mem_append.1 hp with hp | hp
          · rw [j2 p hp]; simp
          · exact List.mem_cons_of_mem _ (i2 p hp)

/-- `get(return_rel=True)` without uids, in every reachable session: exactly the matching (neighbour, relationship) pairs, each once. -/
theorem get_with_rel_once {O : Onto} (hW : O.WF) {s : Sess} (hs : Reachable O s) (u : Uid) (rel : Option Rel) :
    ∃ l, getWithRel O s u [] rel none = .ok l ∧ l.Nodup ∧
      ∀ x r, (x, r) ∈ l ↔ (⟨u, .rel r, .cuds x⟩ : Triple) ∈ s.g ∧ ∀ r', rel = some r' → O.subRel r r' = true := by
  obtain ⟨A, h, hco⟩ := reachable_view hW hs
  obtain ⟨l, h1, h2⟩ := get_with_rel h hco u rel none
  refine ⟨l, h1, ?_, fun x r => by rw [h2, h.link]; simp [Abs.selects]⟩
  obtain ⟨us, m, he, hn, hne, hm, hus, _⟩ := getRaw_spec (O := O) h u [] rel none (Or.inl rfl)
  have hset := getRaw_sets he
  unfold getWithRel at h1
  rw [he] at h1
  simp only [bind, Except.bind] at h1
  rw [loadCudsObjects_eq, hus rfl] at h1
  have hload : ((m.map (·.1)).map some).map (fun o => o.bind fun u => if u ∈ s.reg then some u else none) = (m.map (·.1)).map some := by
    rw [List.map_map]
    apply List.map_congr_left
    intro x hx
    obtain ⟨r, hr⟩ := (Mapping.mem_keys_iff hne).1 hx
    have := (h.reg x).2 (hco.dst _ _ _ ((hm x r).1 hr).1)
    simp [this]
  rw [hload] at h1
  refine (cat_nodup _ _ (List.Pairwise.map some (fun a b hab he => hab (Option.some.inj he)) hn) ?_ l h1).1
  intro o ho l hl
  simp only [List.mem_map] at ho
  obtain ⟨x, _, rfl⟩ := ho
  simp only [relPairs] at hl
  cases hf : m.find? (fun e => e.1 = x) with
  | none => rw [hf] at hl; cases hl
  | some e =>
    obtain ⟨y, rs⟩ := e
    rw [hf] at hl
    cases hl
    refine ⟨List.Pairwise.map _ (fun a b hab he => hab (Prod.mk.inj he).2) (hset _ (List.mem_of_find?_eq_some hf)), ?_⟩
    intro p hp
    obtain ⟨r, _, rfl⟩ := List.mem_map.1 hp
    rfl

theorem byUidsInner_sets (g : Graph) (self : Uid) (r : Rel) : ∀ (it : List (Nat × Uid)) (found : List Nat) (m : Mapping), m.Sets → (byUidsInner g self r it found m).2.Sets
  | [], _, _, h => h
  | (i, u) :: it, found, m, h => by
    unfold byUidsInner
    split
    · exact byUidsInner_sets g self r it _ _ (Mapping.sets_insert h)
    · exact byUidsInner_sets g self r it _ _ h

theorem byUidsLoop_sets (g : Graph) (self : Uid) (e : List (Nat × Uid)) : ∀ (rs : List Rel) (nf : List (Nat × Uid)) (m : Mapping), m.Sets →
    (byUidsLoop g self e rs nf m).2.Sets
  | [], _, _, h => h
  | r :: rs, nf, m, h => by
    unfold byUidsLoop
    exact byUidsLoop_sets g self e rs _ _ (byUidsInner_sets g self r _ _ _ h)

theorem getRaw_uids_sets {O : Onto} {g : Graph} {self : Uid} {uids : List Uid} {rel : Option Rel} {us : List (Option Uid)} {m : Mapping}
    (hu : uids ≠ []) (h : getRaw O g self uids rel none = .ok (us, m)) : m.Sets := by
  unfold getRaw at h
  rw [if_neg (by simp)] at h
  dsimp only at h
  by_cases hc : considerRels O g self rel = []
  · rw [if_pos hc] at h; cases h; intro e he; cases he
  · rw [if_neg hc, if_pos hu] at h
    injection h with h
    have : m = (getByUids g self uids (considerRels O g self rel)).2 := by rw [h]
    rw [this]
    exact byUidsLoop_sets g self _ _ _ [] (by intro e he; cases he)

theorem cat_flat (f : Option Uid → Except PyErr (List (Uid × Rel))) (k : Uid → List (Uid × Rel)) : ∀ us : List Uid, (∀ u ∈ us, f (some u) = .ok (k u)) →
    getWithRel.cat ((us.map some).map f) = .ok (us.flatMap k)
  | [], _ => rfl
  | u :: us, h => by
    rw [List.map_cons, List.map_cons, h u (by simp)]
    simp only [getWithRel.cat]
    rw [cat_flat f k us (fun v hv => h v (by simp [hv]))]
    rfl

theorem cat_error (f : Option Uid → Except PyErr (List (Uid × Rel))) (e : PyErr) : ∀ us : List (Option Uid), (∀ o ∈ us, (∃ l, f o = .ok l) ∨ f o = .error e) →
    (∃ o ∈ us, f o = .error e) → getWithRel.cat (us.map f) = .error e
  | [], _, ⟨_, ho, _⟩ => nomatch ho
  | o :: us, h, hx => by
    rw [List.map_cons]
    rcases h o (by simp) with ⟨l, hl⟩ | hl
    · rw [hl]
      simp only [getWithRel.cat]
      obtain ⟨o', ho', he⟩ := hx
      rcases List.mem_cons.1 ho' with rfl | ho'
      · rw [hl] at he; cases he
      · rw [cat_error f e us (fun v hv => h v (by simp [hv])) ⟨o', ho', he⟩]
    · rw [hl]; rfl

/-- `get(*uids, return_rel=True)` in every reachable session. If each of the given objects is connected to this one by a relationship asked for, the answer lists, for each uid given and in
the order given, every relationship that connects them, each once; if one of them is not, the call fails with an AttributeError (and answers nothing for the others). -/
theorem get_with_rel_uids {O : Onto} (hW : O.WF) {s : Sess} (hs : Reachable O s) (u : Uid) (uids : List Uid) (hu : uids ≠ []) (rel : Option Rel) :
    ((∀ x ∈ uids, ∃ r, (⟨u, .rel r, .cuds x⟩ : Triple) ∈ s.g ∧ ∀ r', rel = some r' → O.subRel r r' = true) →
      ∃ rs : Uid → List Rel, getWithRel O s u uids rel none = .ok (uids.flatMap fun x => (rs x).map fun r => (x, r)) ∧
        ∀ x ∈ uids, (rs x).Nodup ∧ ∀ r, r ∈ rs x ↔ (⟨u, .rel r, .cuds x⟩ : Triple) ∈ s.g ∧ ∀ r', rel = some r' → O.subRel r r' = true) ∧
    ((∃ x ∈ uids, ∀ r, (⟨u, .rel r, .cuds x⟩ : Triple) ∈ s.g → ¬ ∀ r', rel = some r' → O.subRel r r' = true) →
      getWithRel O s u uids rel none = .error .attributeError) := by
  obtain ⟨A, h, hco⟩ := reachable_view hW hs
  obtain ⟨us, m, he, hn, hne, hm, _, hf⟩ := getRaw_spec (O := O) h u uids rel none (Or.inr rfl)
  have hset := getRaw_uids_sets hu he
  have hf := hf hu
  have hlink : ∀ x r, x ∈ uids → (m.Has x r ↔ (⟨u, .rel r, .cuds x⟩ : Triple) ∈ s.g ∧ ∀ r', rel = some r' → O.subRel r r' = true) := by
    intro x r hx
    rw [hm, h.link]
    simp [Abs.selects, hx]
  have hreg : ∀ x r, m.Has x r → x ∈ s.reg := fun x r hr => (h.reg x).2 (hco.dst _ _ _ ((hm x r).1 hr).1)
  have hfind : ∀ x rs, (x, rs) ∈ m → m.find? (fun e => e.1 = x) = some (x, rs) := by
    intro x rs hmem
    cases hfd : m.find? (fun e => e.1 = x) with
    | none => exact absurd (List.find?_eq_none.1 hfd _ hmem) (by simp)
    | some e =>
      obtain ⟨y, rs'⟩ := e
      have hy : y = x := by simpa using List.find?_some hfd
      subst hy
      have hme := List.mem_of_find?_eq_some hfd
      have : ∀ m : Mapping, (m.map (·.1)).Nodup → (y, rs) ∈ m → (y, rs') ∈ m → rs = rs' := by
        intro m
        induction m with
        | nil => intro _ h; cases h
        | cons e m ih =>
          intro hn h1 h2
          simp only [List.map_cons, List.nodup_cons] at hn
          rcases List.mem_cons.1 h1 with h1 | h1 <;> rcases List.mem_cons.1 h2 with h2 | h2
          · rw [← h2] at h1; cases h1; rfl
          · exact absurd (List.mem_map.2 ⟨_, h2, rfl⟩) (by rw [← h1] at hn; exact hn.1)
          · exact absurd (List.mem_map.2 ⟨_, h1, rfl⟩) (by rw [← h2] at hn; exact hn.1)
          · exact ih hn.2 h1 h2
      rw [this m hn hmem hme]
  have hpairs : ∀ x r, m.Has x r → ∃ rs : List Rel, relPairs m (some x) = .ok (rs.map fun r => (x, r)) ∧ rs.Nodup ∧ ∀ r, r ∈ rs ↔ m.Has x r := by
    rintro x r ⟨rs, hmem, hr⟩
    refine ⟨rs, by simp only [relPairs, hfind x rs hmem], hset _ hmem, fun r => ⟨fun hr => ⟨rs, hmem, hr⟩, ?_⟩⟩
    rintro ⟨rs', hmem', hr'⟩
    have := hfind x rs' hmem'
    rw [hfind x rs hmem] at this
    cases this
    exact hr'
  unfold getWithRel
  rw [he]
  simp only [bind, Except.bind]
  rw [loadCudsObjects_eq]
  constructor
  · intro hall
    have hus : us.map (fun o => o.bind fun u => if u ∈ s.reg then some u else none) = uids.map some := by
      have : ∀ (uids : List Uid) (us : List (Option Uid)), List.Forall₂ (fun u o => (o = some u ∧ ∃ r, m.Has u r) ∨ (o = none ∧ ¬ ∃ r, m.Has u r)) uids us →
          (∀ x ∈ uids, ∃ r, m.Has x r) → us.map (fun o => o.bind fun u => if u ∈ s.reg then some u else none) = uids.map some := by
        intro uids us hf
        induction hf with
        | nil => intro _; rfl
        | cons hab _ ih =>
          rename_i a b l1 l2 _
          intro hx
          obtain ⟨r, hr⟩ := hx a (by simp)
          rcases hab with ⟨rfl, _⟩ | ⟨_, hno⟩
          · rw [List.map_cons, List.map_cons, ih (fun x hx' => hx x (by simp [hx']))]
            simp [hreg a r hr]
          · exact absurd ⟨r, hr⟩ hno
      exact this uids us hf (fun x hx => by obtain ⟨r, hr⟩ := hall x hx; exact ⟨r, (hlink x r hx).2 hr⟩)
    rw [hus]
    have hch : ∀ x, ∃ rs : List Rel, x ∈ uids → relPairs m (some x) = .ok (rs.map fun r => (x, r)) ∧ rs.Nodup ∧ ∀ r, r ∈ rs ↔ m.Has x r := by
      intro x
      by_cases hx : x ∈ uids
      · obtain ⟨r, hr⟩ := hall x hx
        obtain ⟨rs, h'⟩ := hpairs x r ((hlink x r hx).2 hr)
        exact ⟨rs, fun _ => h'⟩
      · exact ⟨[], fun h => absurd h hx⟩
    refine ⟨fun x => (hch x).choose, cat_flat _ _ uids (fun x hx => ((hch x).choose_spec hx).1), fun x hx => ⟨((hch x).choose_spec hx).2.1, fun r => ?_⟩⟩
    rw [((hch x).choose_spec hx).2.2 r, hlink x r hx]
  · rintro ⟨x, hx, hno⟩
    have hnone : none ∈ us := by
      have : ∀ (uids : List Uid) (us : List (Option Uid)), List.Forall₂ (fun u o => (o = some u ∧ ∃ r, m.Has u r) ∨ (o = none ∧ ¬ ∃ r, m.Has u r)) uids us →
          x ∈ uids → (¬ ∃ r, m.Has x r) → none ∈ us := by
        intro uids us hf
        induction hf with
        | nil => intro h; cases h
        | cons hab _ ih =>
          intro hx hno
          rcases List.mem_cons.1 hx with rfl | hx
          · rcases hab with ⟨_, hh⟩ | ⟨rfl, _⟩
            · exact absurd hh hno
            · simp
          · exact List.mem_cons_of_mem _ (ih hx hno)
      exact this uids us hf hx (by rintro ⟨r, hr⟩; have := (hlink x r hx).1 hr; exact hno r this.1 this.2)
    refine cat_error _ _ _ ?_ ⟨none, List.mem_map.2 ⟨none, hnone, rfl⟩, rfl⟩
    intro o ho
    obtain ⟨o', ho', rfl⟩ := List.mem_map.1 ho
    have : ∀ (uids : List Uid) (us : List (Option Uid)), List.Forall₂ (fun u o => (o = some u ∧ ∃ r, m.Has u r) ∨ (o = none ∧ ¬ ∃ r, m.Has u r)) uids us →
        ∀ o ∈ us, o = none ∨ ∃ v r, o = some v ∧ m.Has v r := by
      intro uids us hf
      induction hf with
      | nil => intro o h; cases h
      | cons hab _ ih =>
        intro o ho
        rcases List.mem_cons.1 ho with rfl | ho
        · rcases hab with ⟨rfl, r, hh⟩ | ⟨rfl, _⟩
          · exact Or.inr ⟨_, r, rfl, hh⟩
          · exact Or.inl rfl
        · exact ih o ho
    rcases this uids us hf o' ho' with rfl | ⟨v, r, rfl, hr⟩
    · exact Or.inr rfl
    · obtain ⟨rs, h', _⟩ := hpairs v r hr
      simp only [Option.bind, hreg v r hr, if_true]
      exact Or.inl ⟨_, h'⟩

example : getWithRel exOnto (run exOnto {} [.create 1 5 [], .create 2 5 [], .create 3 5 [], .add 1 [2, 3] (some 1) none, .add 1 [2] (some 2) none]).2 1 [3, 2] none none =
    .ok [(3, 1), (2, 1), (2, 2)] := by decide +kernel
example : getWithRel exOnto (run exOnto {} [.create 1 5 [], .create 2 5 [], .create 3 5 [], .add 1 [2] (some 1) none]).2 1 [2, 3] none none = .error .attributeError := by
  decide +kernel

example : getWithRel exOnto (run exOnto {} [.create 1 5 [], .create 2 5 [], .add 1 [2] (some 1) none, .add 1 [2] (some 2) none]).2 1 [] none none =
    .ok [(2, 1), (2, 2)] := by decide +kernel

end Osp.Cuds
