import Verif.Sim.Props
/-!
# Histories of the dummy simulation (C84)
-/
namespace Osp.Sim
open Osp.Cuds Osp.Recycle

variable {T : Terms} {O : Onto} {A : Abs} {w c : Uid} {L : List Part} {n : Int}

theorem map_lookup {p : Progress} {m : Sim} (h : Shows T O A w c L p m) (u : Uid) : m.map.lookup u = (place L u).map (·.1) := by
  rw [h.map, lookup_place]
  rfl

theorem refresh_one {p : Progress} {m : Sim} (hT : Town T O A w c L n) (h : Shows T O A w c L p m) (u : Uid) :
    ∃ m', refreshOne T O w u m = (.ok (), m') ∧ Shows T O A w c L (p.refresh T O A L (· = u)) m' := by
  unfold refreshOne
  rw [map_lookup h]
  cases hp : place L u with
  | none =>
    refine ⟨m, rfl, ?_⟩
    have : p.refresh T O A L (· = u) = p.refresh T O A L (fun _ => False) := refresh_congr p (fun x hx => by
      constructor
      · intro e
        exact place_none.1 hp (List.mem_map.2 ⟨x, hx, e⟩)
      · exact False.elim)
    rw [this]
    have h0 : p.refresh T O A L (fun _ => False) = p := by
      unfold Progress.refresh
      cases p with
      | mk st mo sh =>
        simp only [Progress.mk.injEq, true_and]
        constructor
        · funext v; cases place L v <;> simp
        · funext v; cases place L v <;> simp
    rw [h0]
    exact h
  | some r =>
    obtain ⟨k, a⟩ := r
    obtain ⟨x, e1, e2, _⟩ := place_some hp
    subst e2
    exact load_person hT h (List.mem_of_getElem? e1) hp

theorem refresh_false (p : Progress) : p.refresh T O A L (fun _ => False) = p := by
  unfold Progress.refresh
  cases p with
  | mk st mo sh =>
    simp only [Progress.mk.injEq, true_and]
    constructor
    · funext v; cases place L v <;> simp
    · funext v; cases place L v <;> simp

theorem refresh_all (hT : Town T O A w c L n) (us : List Uid) {p : Progress} {m : Sim} (h : Shows T O A w c L p m) :
    ∃ m', refreshAll T O w us m = (.ok (), m') ∧ Shows T O A w c L (p.refresh T O A L (· ∈ us)) m' := by
  induction us generalizing p m with
  | nil =>
    refine ⟨m, rfl, ?_⟩
    have : (fun u : Uid => u ∈ ([] : List Uid)) = fun _ => False := by funext u; simp
    rw [this, refresh_false]
    exact h
  | cons u us ih =>
    obtain ⟨m1, e1, h1⟩ := refresh_one hT h u
    obtain ⟨m2, e2, h2⟩ := ih h1
    refine ⟨m2, ?_, ?_⟩
    · unfold refreshAll
      rw [e1]
      exact e2
    · rw [refresh_refresh] at h2
      have : (fun v : Uid => v ∈ u :: us) = fun v => v = u ∨ v ∈ us := by funext v; simp
      rw [this]
      exact h2

theorem fst_zipIdx {α : Type} (l : List α) (j : Nat) : (l.zipIdx j).map (·.1) = l := by
  induction l generalizing j with
  | nil => rfl
  | cons a l ih => simp [List.zipIdx_cons, ih]

theorem none_notin (l : List Uid) : (none : Option Uid) ∉ l.map some := by simp

theorem filterMap_some (l : List Uid) : (l.map some).filterMap id = l := by
  induction l with
  | nil => rfl
  | cons a l ih => simp

theorem moved_out {p : Progress} {m : Sim} (h : Shows T O A w c L p m) {v : Uid} (hv : ∀ x ∈ L, x.uid ≠ v) : p.moved v = false := by
  rw [Bool.eq_false_iff]
  intro hm
  obtain ⟨x, hx, e⟩ := List.mem_map.1 (h.moved v hm).1
  exact hv x hx e

theorem load_wrapper {p : Progress} {m : Sim} (hT : Town T O A w c L n) (h : Shows T O A w c L p m) :
    ∃ m', loadWrapper T O w m = (.ok (), m') ∧ Shows T O A w c L (p.refresh T O A L (fun x => p.moved x = false)) m' := by
  obtain ⟨l, e, _, hm⟩ := get_by_filter (O := O) h.ref h.co w none (some T.person)
  obtain ⟨m', e1, h1⟩ := refresh_all hT l h
  refine ⟨m', ?_, ?_⟩
  · unfold loadWrapper
    rw [e]
    dsimp only
    rw [if_neg (none_notin l), filterMap_some]
    exact e1
  · have hwm := moved_out h hT.w_out
    have : p.refresh T O A L (· ∈ l) = p.refresh T O A L (fun x => p.moved x = false) := by
      apply refresh_congr
      intro x hx
      rw [hm]
      constructor
      · rintro ⟨r, (⟨_, _, hl⟩ | ⟨hl, _⟩ | ⟨_, _, hl⟩), _⟩
        · exact hl
        · exact absurd hl hT.wc
        · rw [hwm] at hl; cases hl
      · intro hmo
        obtain ⟨r, hr⟩ := hT.in_wrapper x hx
        obtain ⟨k, hk1, hk2⟩ := hT.person x hx
        refine ⟨r, .inl ⟨hr, hwm, hmo⟩, .inl rfl, by simp, ?_⟩
        intro c' hc'
        cases hc'
        exact ⟨k, by simp [expected, hmo, hk1], hk2⟩
    rw [← this]
    exact h1

theorem load_city {p : Progress} {m : Sim} (hT : Town T O A w c L n) (h : Shows T O A w c L p m) :
    ∃ m', loadCity T O w c m = (.ok (), m') ∧ Shows T O A w c L (p.refresh T O A L (fun x => p.moved x = false)) m' := by
  obtain ⟨l, e, _, hm⟩ := get_by_filter (O := O) h.ref h.co c (some T.hasInhabitant) none
  obtain ⟨m', e1, h1⟩ := refresh_all hT ((m.map.map (·.1)).filter (fun u => some u ∉ l.map some)) h
  refine ⟨m', ?_, ?_⟩
  · unfold loadCity
    rw [e]
    dsimp only
    rw [if_neg (none_notin l)]
    exact e1
  · have hcm := moved_out h hT.c_out
    have : p.refresh T O A L (· ∈ (m.map.map (·.1)).filter (fun u => some u ∉ l.map some)) = p.refresh T O A L (fun x => p.moved x = false) := by
      apply refresh_congr
      intro x hx
      have hmap : x.uid ∈ m.map.map (·.1) := by
        rw [h.map, fst_zipIdx]
        exact List.mem_map.2 ⟨x, hx, rfl⟩
      have hl : x.uid ∈ l ↔ p.moved x.uid = true := by
        rw [hm]
        constructor
        · rintro ⟨r, (⟨hl, _⟩ | ⟨_, _, hl⟩ | ⟨hl, _⟩), _⟩
          · exact absurd (hT.only_wrapper x hx _ _ (hT.co.sym _ _ _ hl)).1 (fun e => hT.wc e.symm)
          · exact hl
          · exact absurd hl (hT.c_out x hx)
        · intro hmo
          exact ⟨T.hasInhabitant, .inr (.inl ⟨rfl, rfl, hmo⟩), .inl rfl, by simpa using hT.inhabitant_refl, by simp⟩
      simp only [List.mem_filter, hmap, true_and, decide_eq_true_eq, List.mem_map, Option.some.injEq, exists_eq_right, hl, Bool.not_eq_true]
    rw [← this]
    exact h1

/-- Loading one object. -/
theorem load_ok {p : Progress} {m : Sim} (hT : Town T O A w c L n) (h : Shows T O A w c L p m) (u : Uid) :
    ∃ m', load T O u m = (.ok (), m') ∧ Shows T O A w c L (p.step T O A L w c n (.load u)) m' := by
  have hw : w ∈ m.s.reg := by
    obtain ⟨k, _, hk, _⟩ := hT.steps
    exact reg_mem h (by rw [hk]; simp)
  have hload : load T O u m = if u = w then loadWrapper T O w m else if u = c then loadCity T O w c m else refreshOne T O w u m := by
    unfold load
    rw [h.root]
    dsimp only
    rw [if_neg (by simpa using hw), get_city hT h]
    simp
  rw [hload]
  unfold Progress.step
  by_cases h1 : u = w
  · subst h1
    rw [if_pos rfl]
    simpa using load_wrapper hT h
  · by_cases h2 : u = c
    · subst h2
      rw [if_neg h1, if_pos rfl]
      simpa using load_city hT h
    · rw [if_neg h1, if_neg h2]
      simpa [h1, h2] using refresh_one hT h u

/-- A later run. -/
theorem run_ok {p : Progress} {m : Sim} (hT : Town T O A w c L n) (h : Shows T O A w c L p m) :
    ∃ m', run T O m = (.ok (), m') ∧ Shows T O A w c L (p.step T O A L w c n .run) m' := by
  obtain ⟨k, v, hk, hka, hv, hn⟩ := hT.steps
  have hw : w ∈ m.s.reg := reg_mem h (by rw [hk]; simp)
  have hwm := moved_out h hT.w_out
  have hg : getAttr O m.s w T.numSteps = .ok v := by
    refine getAttr_view h.ref w T.numSteps k v (by simp [expected, hwm, hk]) hka ?_
    simp [expected, hT.steps_not_age, hwm, hv]
  have hap : applyAll T O w m = (.ok (), m) := by
    unfold applyAll applyAdded applyUpdated applyDeleted
    simp [h.ran, h.added, h.updated, h.deleted, Show.sortBy, applyLoop]
  refine ⟨{ m with engine := m.engine.simulate n, ran := true, added := [], updated := [], deleted := [] }, ?_, ?_⟩
  · unfold run
    rw [h.root]
    dsimp only
    rw [if_neg (by simpa using hw), hap]
    simp [hg, hn]
  · exact ⟨h.ref, h.co, h.root, by simp [Engine.simulate, Progress.step, h.i], by simp [Engine.simulate, Progress.step, h.persons, Int.add_assoc], h.map, rfl, rfl, rfl, rfl,
      h.moved, h.known⟩

theorem history_ok (hT : Town T O A w c L n) (ops : List Op) {p : Progress} {m : Sim} (h : Shows T O A w c L p m) :
    (∀ r ∈ (runAll T O ops m).1, r = .ok ()) ∧ Shows T O A w c L (ops.foldl (fun p op => p.step T O A L w c n op) p) (runAll T O ops m).2 := by
  induction ops generalizing p m with
  | nil => exact ⟨by simp [runAll], h⟩
  | cons op ops ih =>
    obtain ⟨m1, e1, h1⟩ : ∃ m', step T O op m = (.ok (), m') ∧ Shows T O A w c L (p.step T O A L w c n op) m' := by
      cases op with
      | run => exact run_ok hT h
      | load u => exact load_ok hT h u
    obtain ⟨k1, k2⟩ := ih h1
    unfold runAll
    dsimp only
    rw [e1]
    refine ⟨?_, k2⟩
    intro r hr
    rcases List.mem_cons.1 hr with rfl | hr
    · rfl
    · exact k1 r hr

/-! ### The first run -/

theorem apply_one {s : Sess} (hs : Refines s A) (hco : A.Coherent O.inv) (u : Uid) (m : Sim) (hm : m.s = s) :
    (¬ Takes T O A w u → applyOne T O w u m = (.ok (), m)) ∧
    (Takes T O A w u → HasData T O A u → ∃ x : Part, x.uid = u ∧ A.attr u T.name = some x.name ∧ (∃ v, A.attr u T.age = some v ∧ x.age = T.num v) ∧
      applyOne T O w u m = (.ok (), { m with engine := { m.engine with persons := m.engine.persons ++ [⟨x.name, x.age⟩] },
                                             map := m.map ++ [(u, m.engine.persons.length)] })) := by
  subst hm
  obtain ⟨l, e, _, hl⟩ := get_by_filter (O := O) hs hco u (some T.isPartOf) none
  have hin : some w ∈ l.map some ↔ ∃ r, A.link u r w ∧ O.subRel r T.isPartOf = true := by
    simp only [List.mem_map, Option.some.injEq, exists_eq_right]
    rw [hl]
    simp [Abs.selects]
  constructor
  · intro ht
    unfold applyOne
    by_cases hp : isA O m.s u T.person = true
    · rw [if_pos hp, e]
      dsimp only
      rw [if_neg (none_notin l), if_neg]
      rw [hin]
      exact fun h => ht ⟨(isA_ref hs u _).1 hp, h⟩
    · rw [if_neg hp]
  · rintro ⟨h1, h2⟩ ⟨k, nm, v, d1, d2, d3, d4, d5⟩
    refine ⟨⟨u, nm, T.num v⟩, rfl, d4, ⟨v, d5, rfl⟩, ?_⟩
    unfold applyOne
    rw [if_pos ((isA_ref hs u _).2 h1), e]
    dsimp only
    rw [if_neg (none_notin l), if_pos (hin.2 h2), getAttr_view hs u T.name k nm d1 d2 d4, getAttr_view hs u T.age k v d1 d3 d5]
    rfl

open Classical in
theorem apply_loop {s : Sess} (hs : Refines s A) (hco : A.Coherent O.inv) (us : List Uid) (hd : ∀ u ∈ us, Takes T O A w u → HasData T O A u) (m : Sim) (hm : m.s = s) :
    ∃ L : List Part, L.map (·.uid) = us.filter (fun u => decide (Takes T O A w u)) ∧
      (∀ x ∈ L, A.attr x.uid T.name = some x.name ∧ ∃ v, A.attr x.uid T.age = some v ∧ x.age = T.num v) ∧
      applyLoop T O w us m = (.ok (), { m with engine := { m.engine with persons := m.engine.persons ++ L.map (fun x => ⟨x.name, x.age⟩) },
                                               map := m.map ++ (L.map (·.uid)).zipIdx m.engine.persons.length }) := by
  induction us generalizing m with
  | nil => exact ⟨[], rfl, by simp, by simp [applyLoop]⟩
  | cons u us ih =>
    obtain ⟨h1, h2⟩ := apply_one (T := T) (w := w) hs hco u m hm
    by_cases ht : Takes T O A w u
    · obtain ⟨x, x1, x2, x3, x4⟩ := h2 ht (hd u (by simp) ht)
      obtain ⟨L, l1, l2, l3⟩ := ih (fun v hv => hd v (by simp [hv])) { m with engine := { m.engine with persons := m.engine.persons ++ [⟨x.name, x.age⟩] }, map := m.map ++ [(u, m.engine.persons.length)] } hm
      refine ⟨x :: L, ?_, ?_, ?_⟩
      · simp [ht, x1, l1]
      · intro y hy
        rcases List.mem_cons.1 hy with rfl | hy
        · rw [x1]; exact ⟨x2, x3⟩
        · exact l2 y hy
      · unfold applyLoop
        rw [x4]
        dsimp only
        rw [l3]
        simp [List.append_assoc, List.zipIdx_cons, x1]
    · obtain ⟨L, l1, l2, l3⟩ := ih (fun v hv => hd v (by simp [hv])) m hm
      refine ⟨L, ?_, l2, ?_⟩
      · simp [ht, l1]
      · unfold applyLoop
        rw [h1 ht]
        exact l3

/-! ### Stable sorting -/

theorem insertBy_stable {α : Type} {le : α → α → Bool} {R : α → α → Prop} (tot : ∀ a b, le a b = true ∨ le b a = true)
    (tr : ∀ a b c, le a b = true → le b c = true → le a c = true) (x : α) (l : List α) (hx : ∀ y ∈ l, R x y)
    (h : l.Pairwise fun a b => le a b = true ∧ (le b a = true → R a b)) : (Show.insertBy le x l).Pairwise fun a b => le a b = true ∧ (le b a = true → R a b) := by
  induction l with
  | nil => simp [Show.insertBy]
  | cons y l ih =>
    unfold Show.insertBy
    have hy := List.pairwise_cons.1 h
    split
    · rename_i hle
      refine List.pairwise_cons.2 ⟨?_, h⟩
      intro z hz
      refine ⟨?_, fun _ => hx z hz⟩
      rcases List.mem_cons.1 hz with rfl | hz
      · exact hle
      · exact tr _ _ _ hle (hy.1 z hz).1
    · rename_i hle
      refine List.pairwise_cons.2 ⟨?_, ih (fun z hz => hx z (by simp [hz])) hy.2⟩
      intro z hz
      rw [(Show.insertBy_perm le x l).mem_iff] at hz
      rcases List.mem_cons.1 hz with rfl | hz
      · exact ⟨(tot z y).resolve_left hle, fun h => absurd h hle⟩
      · exact hy.1 z hz

theorem sortBy_stable {α : Type} {le : α → α → Bool} {R : α → α → Prop} (tot : ∀ a b, le a b = true ∨ le b a = true)
    (tr : ∀ a b c, le a b = true → le b c = true → le a c = true) (l : List α) (h : l.Pairwise R) :
    (Show.sortBy le l).Pairwise fun a b => le a b = true ∧ (le b a = true → R a b) := by
  induction l with
  | nil => simp [Show.sortBy]
  | cons x l ih =>
    unfold Show.sortBy
    have hx := List.pairwise_cons.1 h
    exact insertBy_stable tot tr x _ (fun y hy => hx.1 y ((Show.sortBy_perm le l).mem_iff.1 hy)) (ih hx.2)

open Classical in
theorem first_run_shows {m : Sim} (hs : Refines m.s A) (hT : Scene T O A w c m.added n) (hr : m.s.root = some w)
    (h0 : m.engine = {}) (h1 : m.map = []) (h2 : m.ran = false) (hnd : m.added.Nodup) :
    ∃ L, Roster T O A w m.added L ∧ Town T O A w c L n ∧ ∃ m', run T O m = (.ok (), m') ∧ Shows T O A w c L { Progress.start with steps := n } m' := by
  obtain ⟨L, l1, l2, l3⟩ := apply_loop (T := T) (w := w) hs hT.co (Show.sortBy (fun a b => Show.textLe (key T O m.s a) (key T O m.s b)) m.added)
    (fun u hu ht => hT.data u ((Show.sortBy_perm _ _).mem_iff.1 hu) ht) m rfl
  have hwho : ∀ u, u ∈ L.map (·.uid) ↔ u ∈ m.added ∧ Takes T O A w u := by
    intro u
    rw [l1, List.mem_filter, (Show.sortBy_perm _ _).mem_iff]
    simp
  have hx : ∀ x ∈ L, x.uid ∈ m.added ∧ Takes T O A w x.uid := fun x hx => (hwho x.uid).1 (List.mem_map.2 ⟨x, hx, rfl⟩)
  have hLn : (L.map (·.uid)).Nodup := by
    rw [l1]
    exact ((Show.sortBy_perm _ _).nodup_iff.2 hnd).filter _
  have hkey : ∀ x ∈ L, key T O m.s x.uid = T.text x.name := by
    intro x hxL
    obtain ⟨k, nm, v, d1, d2, d3, d4, d5⟩ := hT.data x.uid (hx x hxL).1 (hx x hxL).2
    unfold key
    rw [getAttr_view hs x.uid T.name k x.name d1 d2 (l2 x hxL).1]
  have hsort := sortBy_stable (le := fun a b => Show.textLe (key T O m.s a) (key T O m.s b)) (R := fun a b => [a, b].Sublist m.added)
    (fun a b => Show.textLe_total _ _) (fun a b c => Show.textLe_trans) m.added (List.pairwise_iff_forall_sublist.2 fun h => h)
  have hsort2 := hsort.filter (fun u => decide (Takes T O A w u))
  rw [← l1, List.pairwise_map] at hsort2
  refine ⟨L, ⟨hLn, hwho, l2, ?_⟩, ?_, ?_⟩
  · refine hsort2.imp_of_mem ?_
    intro a b ha hb h
    rw [hkey a ha, hkey b hb] at h
    exact ⟨Show.textLe_iff.1 h.1, fun e => h.2 (by rw [e]; exact Show.textLe_refl _)⟩
  · exact {
      wf := hT.wf, co := hT.co, names := hT.names, numbers := hT.numbers, citizen_refl := hT.citizen_refl, citizen_age := hT.citizen_age,
      inhabitant_refl := hT.inhabitant_refl, wc := hT.wc, city := hT.city, city_is := hT.city_is, only_city := hT.only_city, steps := hT.steps,
      steps_not_age := hT.steps_not_age, nodup := hLn
      w_out := fun x h e => hT.w_out (e ▸ (hx x h).2)
      c_out := fun x h e => hT.c_out (e ▸ (hx x h).2)
      person := fun x h => (hx x h).2.1
      has_age := fun x h k hk => by
        obtain ⟨k', _, _, d1, _, d3, _⟩ := hT.data x.uid (hx x h).1 (hx x h).2
        rw [d1] at hk
        cases hk
        exact d3
      has_name := fun x h => ⟨(l2 x h).1, hT.name_stored x.uid (hx x h).1 (hx x h).2 _ (l2 x h).1⟩
      in_wrapper := fun x h => by
        obtain ⟨_, r, hr, _⟩ := (hx x h).2
        exact ⟨_, hT.co.sym _ _ _ hr⟩
      only_wrapper := fun x h => hT.only_wrapper x.uid (hx x h).1 (hx x h).2 }
  · obtain ⟨k, v, hk, hka, hv, hn⟩ := hT.steps
    have hw : w ∈ m.s.reg := (hs.reg w).2 (by rw [hk]; simp)
    have hap : applyAll T O w m = (.ok (), { m with engine := { m.engine with persons := m.engine.persons ++ L.map (fun x => ⟨x.name, x.age⟩) }, map := m.map ++ (L.map (·.uid)).zipIdx m.engine.persons.length }) := by
      unfold applyAll applyAdded
      rw [if_pos h2, if_neg (by simp [h2])]
      exact l3
    have hg : getAttr O m.s w T.numSteps = .ok v := getAttr_view hs w T.numSteps k v hk hka hv
    have he : expected T O A c { Progress.start with steps := n } = A := by
      unfold expected Progress.start
      simp
    refine ⟨_, by
      unfold run
      rw [hr]
      dsimp only
      rw [if_neg (by simpa using hw), hap]
      dsimp only
      rw [hg], ?_⟩
    refine ⟨by rw [he]; exact hs, by rw [he]; exact hT.co, hr, ?_, ?_, ?_, rfl, rfl, rfl, rfl, by simp [Progress.start], by simp [Progress.start]⟩
    · simp [Engine.simulate, h0, hn]
    · simp [Engine.simulate, h0, hn]
    · simp [h0, h1]

/-- **C84, the simulation does what it promises.** A wrapper with one city, and persons who are linked to the wrapper only. After the first run, those who take part are exactly the
added persons that are parts of the wrapper, ordered by name, equal names in the order in which they were added. Whatever is run and loaded then, every call succeeds, and the
session shows exactly the progress of the simulation: no other object, value or link changes. -/
theorem simulation_exact {m : Sim} (hs : Refines m.s A) (hT : Scene T O A w c m.added n) (hr : m.s.root = some w)
    (h0 : m.engine = {}) (h1 : m.map = []) (h2 : m.ran = false) (hnd : m.added.Nodup) :
    ∃ L, Roster T O A w m.added L ∧ (run T O m).1 = .ok () ∧ ∀ ops,
      (∀ r ∈ (runAll T O ops (run T O m).2).1, r = .ok ()) ∧
      Refines (runAll T O ops (run T O m).2).2.s (expected T O A c (ops.foldl (fun p op => p.step T O A L w c n op) { Progress.start with steps := n })) := by
  obtain ⟨L, hL, hTo, m', e, hS⟩ := first_run_shows hs hT hr h0 h1 h2 hnd
  refine ⟨L, hL, by rw [e], fun ops => ?_⟩
  rw [e]
  obtain ⟨k1, k2⟩ := history_ok hTo ops hS
  exact ⟨k1, k2.ref⟩

theorem foldl_steps (ops : List Op) (p : Progress) :
    (ops.foldl (fun p op => p.step T O A L w c n op) p).steps = p.steps + ops.count .run * n := by
  induction ops generalizing p with
  | nil => simp
  | cons op ops ih =>
    rw [List.foldl_cons, ih]
    cases op with
    | run => simp only [Progress.step, List.count_cons_self]; push_cast; rw [Int.add_mul]; omega
    | load u => simp [Progress.step, Progress.refresh]

/-- Nobody has moved too early: steps are never taken back. -/
theorem moved_early (hn : 0 ≤ n) (ops : List Op) (p : Progress)
    (h : ∀ u, p.moved u = true → ∃ k a, place L u = some (k, a) ∧ (k : Int) < p.steps ∧ ¬ Is O A u T.citizen) :
    ∀ u, (ops.foldl (fun p op => p.step T O A L w c n op) p).moved u = true → ∃ k a, place L u = some (k, a) ∧
      (k : Int) < (ops.foldl (fun p op => p.step T O A L w c n op) p).steps ∧ ¬ Is O A u T.citizen := by
  induction ops generalizing p with
  | nil => exact h
  | cons op ops ih =>
    rw [List.foldl_cons]
    apply ih
    intro u hu
    cases op with
    | run =>
      obtain ⟨k, a, h1, h2, h3⟩ := h u hu
      exact ⟨k, a, h1, by simp only [Progress.step]; omega, h3⟩
    | load v =>
      simp only [Progress.step, Progress.refresh, Bool.or_eq_true] at hu ⊢
      rcases hu with hu | hu
      · exact h u hu
      · cases hp : place L u with
        | none => rw [hp] at hu; simp at hu
        | some r =>
          rw [hp] at hu
          simp only [decide_eq_true_eq] at hu
          exact ⟨r.1, r.2, rfl, hu.2.2, hu.2.1⟩

/-- **C84, ages and moves.** With `n ≥ 0` steps in each run: after the first run and any further history, the object of the `k`-th person (from 0, in the order of names) is loaded.
Let `N` be the number of all steps so far. The age is then the age at the start plus `N`. The person is a citizen, linked to the city and to nothing else, if `k < N` (and was not
a citizen before the simulation); otherwise class and links are as before the simulation. -/
theorem person_ages_and_moves {m : Sim} (hs : Refines m.s A) (hT : Scene T O A w c m.added n) (hr : m.s.root = some w)
    (h0 : m.engine = {}) (h1 : m.map = []) (h2 : m.ran = false) (hnd : m.added.Nodup) (hn : 0 ≤ n) :
    ∃ L, Roster T O A w m.added L ∧ ∀ (ops : List Op) (k : Nat) (x : Part), L[k]? = some x →
      ∃ B, Refines (runAll T O (ops ++ [.load x.uid]) (run T O m).2).2.s B ∧ B.attr x.uid T.age = some (T.ofNum (x.age + (1 + ops.count .run) * n)) ∧
        (¬ Is O A x.uid T.citizen ∧ (k : Int) < (1 + ops.count .run) * n →
          B.cls x.uid = some T.citizen ∧ B.attr x.uid T.name = some x.name ∧ ∀ r y, (B.link x.uid r y ↔ r = O.inv T.hasInhabitant ∧ y = c) ∧
            (B.link y r x.uid ↔ r = T.hasInhabitant ∧ y = c)) ∧
        (Is O A x.uid T.citizen ∨ ¬ (k : Int) < (1 + ops.count .run) * n →
          B.cls x.uid = A.cls x.uid ∧ (∀ a, a ≠ T.age → B.attr x.uid a = A.attr x.uid a) ∧
            ∀ r y, (B.link x.uid r y ↔ A.link x.uid r y) ∧ (B.link y r x.uid ↔ A.link y r x.uid)) := by
  obtain ⟨L, hL, hTo, m', e, hS⟩ := first_run_shows hs hT hr h0 h1 h2 hnd
  refine ⟨L, hL, fun ops k x hx => ?_⟩
  rw [e]
  have hxL : x ∈ L := List.mem_of_getElem? hx
  have hplace : place L x.uid = some (k, x.age) := by
    cases hp : place L x.uid with
    | none => exact absurd (List.mem_map.2 ⟨x, hxL, rfl⟩) (place_none.1 hp)
    | some r =>
      obtain ⟨k', a'⟩ := r
      obtain ⟨y, y1, y2, y3⟩ := place_some hp
      have hyx := inj_of_nodup hTo.nodup (List.mem_of_getElem? y1) hxL y2
      subst hyx
      have hk : k' = k := by
        have hnd := hTo.nodup
        obtain ⟨b1, c1⟩ := List.getElem?_eq_some_iff.1 y1
        obtain ⟨b2, c2⟩ := List.getElem?_eq_some_iff.1 hx
        have e1 : (L.map (·.uid))[k']'(by simpa using b1) = (L.map (·.uid))[k]'(by simpa using b2) := by simp [c1, c2]
        exact (List.getElem_inj hnd).1 e1
      rw [hk, y3]
  have hsteps := foldl_steps (T := T) (O := O) (A := A) (L := L) (w := w) (c := c) (n := n) ops { Progress.start with steps := n }
  have hearly := moved_early (T := T) (O := O) (A := A) (L := L) (w := w) (c := c) hn ops { Progress.start with steps := n } (by simp [Progress.start])
  obtain ⟨_, k2⟩ := history_ok hTo (ops ++ [.load x.uid]) hS
  rw [List.foldl_append, List.foldl_cons, List.foldl_nil] at k2
  generalize ops.foldl (fun p op => p.step T O A L w c n op) { Progress.start with steps := n } = p at hsteps hearly k2
  have hN : p.steps = (1 + ops.count .run) * n := by
    rw [hsteps, Int.add_mul]
    simp
  have hxw : x.uid ≠ w := hTo.w_out x hxL
  have hxc : x.uid ≠ c := hTo.c_out x hxL
  have hmv : (p.step T O A L w c n (.load x.uid)).moved x.uid = true ↔ (¬ Is O A x.uid T.citizen ∧ (k : Int) < (1 + ops.count .run) * n) := by
    simp only [Progress.step, Progress.refresh, hplace, hxw, hxc, or_self, if_false, true_and, Bool.or_eq_true, decide_eq_true_eq, hN]
    constructor
    · rintro (h | h)
      · obtain ⟨k', a', q1, q2, q3⟩ := hearly _ h
        rw [hplace] at q1
        cases q1
        rw [hN] at q2
        exact ⟨q3, q2⟩
      · exact h
    · exact .inr
  have hother : ∀ v, v = w → (p.step T O A L w c n (.load x.uid)).moved v = false := fun v hv => moved_out k2 (hv ▸ hTo.w_out)
  have hcm : (p.step T O A L w c n (.load x.uid)).moved c = false := moved_out k2 hTo.c_out
  have hsh : (p.step T O A L w c n (.load x.uid)).shown x.uid = some (x.age + (1 + ops.count .run) * n) := by
    simp [Progress.step, Progress.refresh, hplace, hxw, hxc, hN]
  refine ⟨_, k2.ref, ?_, ?_, ?_⟩
  · simp [expected, hsh]
  · intro hmo
    have hm := hmv.2 hmo
    refine ⟨by simp [expected, hm], by simp [expected, hm, hT.names, (hTo.has_name x hxL).1], fun r y => ⟨?_, ?_⟩⟩
    · simp only [expected, hm, hxc]
      constructor
      · rintro (h | h | h)
        · cases h.2.1
        · exact h.1.elim
        · exact ⟨h.2.1, h.1⟩
      · rintro ⟨h, h'⟩
        exact .inr (.inr ⟨h', h, trivial⟩)
    · simp only [expected, hm, hxc]
      constructor
      · rintro (h | h | h)
        · cases h.2.2
        · exact ⟨h.2.1, h.1⟩
        · exact h.1.elim
      · rintro ⟨h, h'⟩
        exact .inr (.inl ⟨h', h, trivial⟩)
  · intro hmo
    have hm : (p.step T O A L w c n (.load x.uid)).moved x.uid = false := by
      rw [Bool.eq_false_iff]
      intro h
      obtain ⟨a, b⟩ := hmv.1 h
      exact hmo.elim a (fun h => h b)
    refine ⟨by simp [expected, hm], fun a ha => by simp [expected, hm, ha], fun r y => ⟨?_, ?_⟩⟩
    · simp only [expected, hm, hxc]
      constructor
      · rintro (h | h | h)
        · exact h.1
        · exact h.1.elim
        · cases h.2.2
      · intro h
        refine .inl ⟨h, trivial, ?_⟩
        exact hother y (hTo.only_wrapper x hxL r y h).1
    · simp only [expected, hm, hxc]
      constructor
      · rintro (h | h | h)
        · exact h.1
        · cases h.2.2
        · exact h.1.elim
      · intro h
        exact .inl ⟨h, hother y (hTo.only_wrapper x hxL _ y (hT.co.sym _ _ _ h)).1, trivial⟩

/-- **C84, no changes after the start.** Once the simulation has run, a session with any pending change of the user cannot run: RuntimeError, and nothing at all happens, so that it
stays like this however often it is tried. -/
theorem changed_simulation_refused (m : Sim) (h : m.ran = true) (w : Uid) (hr : m.s.root = some w) (hw : w ∈ m.s.reg)
    (hch : m.added ≠ [] ∨ m.updated ≠ [] ∨ m.deleted ≠ []) : run T O m = (.error .runtimeError, m) := by
  have hap : applyAll T O w m = (.error .runtimeError, m) := by
    unfold applyAll
    rw [if_neg (by simp [h])]
    by_cases ha : m.added = []
    · have : applyAdded T O w m = (.ok (), m) := by simp [applyAdded, ha, Show.sortBy, applyLoop]
      rw [this]
      dsimp only
      by_cases hu : m.updated = []
      · have : applyUpdated m = (.ok (), m) := by simp [applyUpdated, hu]
        rw [this]
        dsimp only
        have hd := (hch.resolve_left (fun e => e ha)).resolve_left (fun e => e hu)
        simp [applyDeleted, h, hd]
      · have : applyUpdated m = (.error .runtimeError, m) := by simp [applyUpdated, hu, h]
        rw [this]
    · have : applyAdded T O w m = (.error .runtimeError, m) := by simp [applyAdded, ha, h]
      rw [this]
  unfold run
  rw [hr]
  dsimp only
  rw [if_neg (by simpa using hw), hap]

theorem changed_simulation_stuck (m : Sim) (h : m.ran = true) (w : Uid) (hr : m.s.root = some w) (hw : w ∈ m.s.reg)
    (hch : m.added ≠ [] ∨ m.updated ≠ [] ∨ m.deleted ≠ []) (k : Nat) :
    runAll T O (List.replicate k .run) m = (List.replicate k (.error .runtimeError), m) := by
  induction k with
  | zero => rfl
  | succ k ih =>
    rw [List.replicate_succ, List.replicate_succ]
    simp only [runAll, step, changed_simulation_refused m h w hr hw hch, ih]

end Osp.Sim
