import Verif.Persist.Load
/-!
# Loading several objects, the first level, and the objects of a class
-/
namespace Osp.Persist
open Tables

variable {D V : Type} [DecidableEq D] [DecidableEq V]

omit [DecidableEq D] [DecidableEq V] in
theorem seen_about {S : Facts D V} {w : Uid} (hc : NoClash S w) {f : Fact D V} (hf : S f) : About S w (seenTriple w f).s (seenTriple w f) := by
  refine ⟨f, hf, ?_, rfl⟩
  show f.s = said w (seen w f.s)
  have h := hc f hf
  cases hs : f.s with
  | root => simp [seen, said]
  | obj v =>
    rw [hs] at h
    have : v ≠ w := fun e => h (by rw [e])
    simp [seen, said, this]

omit [DecidableEq D] [DecidableEq V] in
theorem nb_about {S : Facts D V} {w u : Uid} (hc : NoClash S w) {x : Triple D V} (h : NbTypes S w u x) : About S w x.s x := by
  obtain ⟨_, _, _, _, _, k, i, hk, _, _, rfl⟩ := h
  exact seen_about hc hk

/-- **C85.** Loading several objects: none raises, each is answered by the object or by `None` if nothing is stored about it, and the session shows exactly what is stored
about them. -/
theorem loadAll_exact {E : Env D V} (hO : E.toOnto.WF) : ∀ (us : List Uid) {s : Ses D V} {st : St D V} {S : Facts D V}, Keeps E st S → NoClash S s.root → (∀ u ∈ us, u ≠ 0) →
    ∃ s' st', loadAll E us s st = (.ok (us.map (answer S s.root)), s', st') ∧ Keeps E st' S ∧ st'.db.dts = st.db.dts ∧ LoadedAll S us s s'
  | [], s, st, S, h, _, _ => ⟨s, st, rfl, h, rfl, rfl, by simp, by simp, fun x hx => Or.inr ⟨hx, by simp⟩, fun x hx _ => hx⟩
  | u :: us, s, st, S, h, hc, hu => by
    obtain ⟨r, s1, st1, a1, a2, a3, a4, a5, a6⟩ := load_exact hO (hu u List.mem_cons_self) (s := s) h
    have hroot := a4.root
    obtain ⟨s2, st2, b1, b2, b3, b4⟩ := loadAll_exact hO us (s := s1) a2 (by rw [hroot]; exact hc) (fun v hv => hu v (List.mem_cons_of_mem _ hv))
    rw [hroot] at b1
    refine ⟨s2, st2, ?_, b2, b3.trans a3, ?_⟩
    · have hr : r = answer S s.root u := by
        unfold answer
        by_cases hk : Known S s.root u
        · rw [if_pos hk]; exact a5 hk
        · rw [if_neg hk]; exact (a6 hk).1
      simp only [loadAll, a1, b1, List.map_cons, hr]
    · have bt := b4.root
      have br := b4.reg
      have ba := b4.all
      have bo := b4.only
      have bk := b4.kept
      rw [hroot] at br ba bo bk bt
      refine ⟨bt, fun v => ?_, ?_, ?_, ?_⟩
      · rw [br, a4.reg, List.mem_cons]
        constructor
        · rintro ((q | ⟨rfl, q⟩) | ⟨q1, q2⟩)
          · exact Or.inl q
          · exact Or.inr ⟨Or.inl rfl, q⟩
          · exact Or.inr ⟨Or.inr q1, q2⟩
        · rintro (q | ⟨rfl | q1, q2⟩)
          · exact Or.inl (Or.inl q)
          · exact Or.inl (Or.inr ⟨rfl, q2⟩)
          · exact Or.inr ⟨q1, q2⟩
      · intro v hv x hx
        by_cases hvu : v ∈ us
        · exact ba v hvu x hx
        · rcases List.mem_cons.1 hv with rfl | hv
          · refine bk x ((a4.g x).2 (Or.inr (Or.inl hx))) (Or.inl ?_)
            rw [about_s hx]
            exact hvu
          · exact absurd hv hvu
      · intro x hx
        rcases bo x hx with q | ⟨q1, q2⟩
        · exact Or.inl q
        · rcases (a4.g x).1 q1 with ⟨q3, q4⟩ | q3 | q3
          · refine Or.inr ⟨q3, ?_⟩
            rintro ⟨p1, p2, p3⟩
            rcases List.mem_cons.1 p1 with p1 | p1
            · rw [p1] at p2 p3
              exact q4 ⟨p3, p2, p1⟩
            · exact q2 ⟨p1, (a4.reg _).2 (Or.inl p2), p3⟩
          · left
            rw [about_s q3]
            exact q3
          · exact Or.inl (nb_about hc q3)
      · intro x hx hcond
        by_cases hxu : x.s = u
        · have hnk : ¬ Known S s.root x.s := by
            rcases hcond with c | c
            · exact absurd (hxu ▸ List.mem_cons_self) c
            · exact c
          refine bk x ((a4.g x).2 (Or.inl ⟨hx, ?_⟩)) (Or.inr hnk)
          rintro ⟨p1, _, _⟩
          rw [hxu] at hnk
          exact hnk p1
        · have h1 : x ∈ s1.g := (a4.g x).2 (Or.inl ⟨hx, fun ⟨_, _, p⟩ => hxu p⟩)
          refine bk x h1 ?_
          rcases hcond with c | c
          · exact Or.inl fun q => c (List.mem_cons_of_mem _ q)
          · exact Or.inr c

omit [DecidableEq D] [DecidableEq V] in
theorem mem_childUids : ∀ (ts : List (Triple D V)) (u : Uid), u ∈ childUids ts ↔ u ≠ 0 ∧ ∃ t ∈ ts, t.o = .cuds u
  | [], u => by simp [childUids]
  | t :: ts, u => by
    have ih := mem_childUids ts u
    obtain ⟨s, p, o⟩ := t
    cases o with
    | cuds v =>
      by_cases hv : v = 0
      · simp only [childUids, hv, ne_eq, not_true_eq_false, if_false, ih, List.mem_cons, exists_eq_or_imp, Obj.cuds.injEq]
        constructor
        · rintro ⟨h1, h2⟩; exact ⟨h1, Or.inr h2⟩
        · rintro ⟨h1, h2 | h2⟩
          · exact absurd h2.symm h1
          · exact ⟨h1, h2⟩
      · simp only [childUids, hv, ne_eq, not_false_iff, if_true, List.mem_cons, ih, exists_eq_or_imp, Obj.cuds.injEq]
        constructor
        · rintro (rfl | ⟨h1, h2⟩)
          · exact ⟨hv, Or.inl rfl⟩
          · exact ⟨h1, Or.inr h2⟩
        · rintro ⟨h1, h2 | h2⟩
          · exact Or.inl h2.symm
          · exact Or.inr ⟨h1, h2⟩
    | ent i => simp [childUids, ih]
    | lit d v => simp [childUids, ih]

theorem firstLevel_ok {E : Env D V} (hO : E.toOnto.WF) {s : Ses D V} (hw : s.root ≠ 0) {st : St D V} {S : Facts D V} (h : Keeps E st S) (hc : NoClash S s.root) :
    ∃ us s' st', firstLevel E s st = (.ok (), s', st') ∧ Keeps E st' S ∧ st'.db.dts = st.db.dts ∧ LoadedAll S us s s' ∧ ∀ u, u ∈ us ↔ u = s.root ∨ u ≠ 0 ∧ Child S u := by
  have h' := h
  obtain ⟨L, h1, h2, h3⟩ := h'
  obtain ⟨ts, st1, k1, k2, k3⟩ := triples_ok hO h1 (pat := ⟨some 0, none, none⟩) trivial
  have hmem : ∀ u, u ∈ E.order (s.root :: childUids ts) ↔ u = s.root ∨ u ≠ 0 ∧ Child S u := by
    intro u
    rw [E.order_mem, List.mem_cons, mem_childUids]
    refine or_congr_right (and_congr_right fun hu => ?_)
    constructor
    · rintro ⟨t, ht, e⟩
      obtain ⟨q1, q2⟩ := (k3 t).1 ht
      rw [matches_iff] at q2
      refine ⟨saidTriple 0 t, (h3 _).2 ⟨t, q1, rfl⟩, ?_, ?_⟩
      · show said 0 t.s = _
        rw [q2.1 0 rfl]
        rfl
      · show saidObj 0 t.o = _
        rw [e]
        simp [saidObj, said, hu]
    · rintro ⟨f, hf, hs, ho⟩
      obtain ⟨t, ht, rfl⟩ := (h3 f).1 hf
      refine ⟨t, (k3 t).2 ⟨ht, ?_⟩, ?_⟩
      · rw [matches_iff]
        refine ⟨?_, by simp, by simp⟩
        intro y hy
        cases hy
        exact said_zero_inj hs
      · change saidObj 0 t.o = _ at ho
        cases hto : t.o with
        | cuds v =>
          rw [hto] at ho
          have e : said 0 v = .obj u := by injection ho
          have e' : said 0 u = .obj u := by simp [said, hu]
          rw [said_zero_inj (e.trans e'.symm)]
        | ent j => rw [hto] at ho; cases ho
        | lit d v => rw [hto] at ho; cases ho
  obtain ⟨s', st', b1, b2, b3, b4⟩ := loadAll_exact hO (E.order (s.root :: childUids ts)) (s := s) (h.ext k2) hc
    (fun u hu => by
      rcases (hmem u).1 hu with rfl | hu
      · exact hw
      · exact hu.1)
  exact ⟨_, s', st', by simp only [firstLevel, k1, b1], b2, b3.trans k2.ext.dts, b4, hmem⟩

/-- **C85.** A new session with a new wrapper on the database: the call does not raise, and afterwards exactly the wrapper and its stored children are registered; of each child
the session has exactly what is stored, of the wrapper too, or, if nothing is stored about the wrapper, what the user gave it. -/
theorem connect_exact {E : Env D V} (hO : E.toOnto.WF) {w : Uid} (hw : w ≠ 0) {own : List (Triple D V)} (ho : ∀ x ∈ own, x.s = w) (dts : List D) {st : St D V} {S : Facts D V}
    (h : Keeps E st S) (hc : NoClash S w) :
    ∃ s' st', connect E w own dts st = (.ok (), s', st') ∧ Keeps E st' S ∧ st'.db.dts = st.db.dts ++ dts.filter (fun d => d ∉ st.db.dts) ∧ s'.root = w ∧ (∀ u, u ∈ s'.reg ↔ u = w ∨ u ≠ 0 ∧ Child S u ∧ Known S w u) ∧
      (∀ u ∈ s'.reg, u ≠ w ∨ Known S w w → ∀ x, x ∈ s'.g ∧ x.s = u ↔ About S w u x) ∧ (¬ Known S w w → ∀ x, x ∈ s'.g ∧ x.s = w ↔ x ∈ own) ∧
      (∀ x ∈ s'.g, About S w x.s x ∨ x ∈ own) := by
  have h0 : Keeps E (reopen dts st) S := by
    obtain ⟨L, h1, h2, h3⟩ := h
    exact ⟨L, reopen_ok h1 dts, h2, h3⟩
  obtain ⟨us, s', st', a1, a2, a3, a4, a5⟩ := firstLevel_ok hO (s := ⟨w, [w], own⟩) hw h0 hc
  have hreg := a4.reg
  have hall := a4.all
  have honly := a4.only
  have hkept := a4.kept
  dsimp only at a5 hreg hall honly hkept
  refine ⟨s', st', a1, a2, a3, a4.root, fun u => ?_, fun u hu hcond x => ?_, fun hnk x => ?_, fun x hx => (honly x hx).imp_right And.left⟩
  · rw [hreg, List.mem_singleton, a5]
    constructor
    · rintro (q | ⟨q | ⟨q0, q⟩, k⟩)
      · exact Or.inl q
      · exact Or.inl q
      · exact Or.inr ⟨q0, q, k⟩
    · rintro (q | ⟨q0, q, k⟩)
      · exact Or.inl q
      · exact Or.inr ⟨Or.inr ⟨q0, q⟩, k⟩
  · have huus : u ∈ us := by
      rcases (hreg u).1 hu with q | q
      · rw [List.mem_singleton] at q
        exact (a5 u).2 (Or.inl q)
      · exact q.1
    constructor
    · rintro ⟨q1, q2⟩
      rcases honly x q1 with q | ⟨q3, q4⟩
      · rwa [q2] at q
      · have e := ho x q3
        rw [q2] at e
        rcases hcond with c | c
        · exact absurd e c
        · exact absurd ⟨by rw [q2]; exact huus, by rw [q2, e]; exact List.mem_singleton.2 rfl, by rw [q2, e]; exact c⟩ q4
    · intro q
      exact ⟨hall u huus x q, about_s q⟩
  · constructor
    · rintro ⟨q1, q2⟩
      rcases honly x q1 with q | ⟨q3, _⟩
      · rw [q2] at q
        exact absurd (known_iff.2 ⟨x, q⟩) hnk
      · exact q3
    · intro q
      refine ⟨hkept x q (Or.inr ?_), ho x q⟩
      rw [ho x q]
      exact hnk

/-- **C85.** Loading the objects of a class (without subclasses): none raises, and the answer lists, each once, exactly the objects whose stored type is the class. -/
theorem byOclass_exact {E : Env D V} (hO : E.toOnto.WF) (c : Iri) {s : Ses D V} (hw : s.root ≠ 0) {st : St D V} {S : Facts D V} (h : Keeps E st S) (hc : NoClash S s.root) :
    ∃ us s' st', loadByOclass E c s st = (.ok (us.map some), s', st') ∧ Keeps E st' S ∧ st'.db.dts = st.db.dts ∧ LoadedAll S us s s' ∧ us.Nodup ∧
      ∀ u, u ∈ us ↔ ∃ f, S f ∧ f.s = said s.root u ∧ f.o = .ent c := by
  have h' := h
  obtain ⟨L, h1, h2, h3⟩ := h'
  obtain ⟨ts, st1, k1, k2, k3⟩ := triples_ok hO h1 (pat := ⟨none, some E.rdfType, some (.ent c)⟩) (Or.inr rfl)
  have h0 : ∀ f, S f → f.s ≠ .obj 0 := by
    intro f hf e
    obtain ⟨t, _, rfl⟩ := (h3 f).1 hf
    change said 0 t.s = _ at e
    unfold said at e
    split at e
    · cases e
    · rename_i hz; injection e with e; exact hz e
  have hmem : ∀ u, u ∈ E.order (ts.map (fun t : Triple D V => if t.s = 0 then s.root else t.s)) ↔ ∃ f, S f ∧ f.s = said s.root u ∧ f.o = .ent c := by
    intro u
    rw [E.order_mem, List.mem_map]
    constructor
    · rintro ⟨t, ht, rfl⟩
      obtain ⟨q1, q2⟩ := (k3 t).1 ht
      rw [matches_iff] at q2
      have hf : S (saidTriple 0 t) := (h3 _).2 ⟨t, q1, rfl⟩
      refine ⟨saidTriple 0 t, hf, ?_, ?_⟩
      · obtain ⟨f, _, hs, e⟩ := seen_about hc hf
        have e2 : (seenTriple s.root (saidTriple 0 t)).s = if t.s = 0 then s.root else t.s := seen_said_zero
        rw [← e2]
        show said 0 t.s = _
        have hcl := hc _ hf
        by_cases hz : t.s = 0
        · rw [e2, if_pos hz, hz]; simp [said]
        · rw [e2, if_neg hz]
          have hne : t.s ≠ s.root := by
            intro e; apply hcl; show said 0 t.s = _; simp [said, hz, ← e]
          simp [said, hz, hne]
      · show saidObj 0 t.o = _
        rw [q2.2.2 _ rfl]
        rfl
    · rintro ⟨f, hf, hs, ho⟩
      obtain ⟨t, ht, rfl⟩ := (h3 f).1 hf
      have hto : t.o = .ent c := by
        change saidObj 0 t.o = _ at ho
        cases hto : t.o with
        | cuds v => rw [hto] at ho; cases ho
        | ent j => rw [hto] at ho; injection ho with ho; rw [ho]
        | lit d v => rw [hto] at ho; cases ho
      refine ⟨t, (k3 t).2 ⟨ht, ?_⟩, ?_⟩
      · rw [matches_iff]
        refine ⟨by simp, ?_, ?_⟩
        · intro y hy
          cases hy
          exact (type_iff (h1.ok t ht)).2 ⟨c, hto⟩
        · intro y hy
          cases hy
          exact hto
      · rw [← seen_said_zero]
        have : said 0 t.s = said s.root u := hs
        rw [this, seen_said]
  obtain ⟨s', st', b1, b2, b3, b4⟩ := loadAll_exact hO (E.order (ts.map (fun t : Triple D V => if t.s = 0 then s.root else t.s))) (s := s) (h.ext k2) hc
    (fun u hu => by
      obtain ⟨f, hf, hs, _⟩ := (hmem u).1 hu
      rintro rfl
      apply h0 f hf
      rw [hs]
      simp [said, Ne.symm hw])
  refine ⟨_, s', st', ?_, b2, b3.trans k2.ext.dts, b4, E.order_nodup _, hmem⟩
  have hr : (E.order (ts.map (fun t : Triple D V => if t.s = 0 then s.root else t.s))).map (answer S s.root) = (E.order (ts.map (fun t : Triple D V => if t.s = 0 then s.root else t.s))).map some := by
    refine List.map_congr_left fun u hu => ?_
    obtain ⟨f, hf, hs, _⟩ := (hmem u).1 hu
    unfold answer
    exact if_pos ⟨f, hf, hs⟩
  rw [← hr]
  simp only [loadByOclass, k1, b1]

/-- **C85.** Loading the objects of a class and its subclasses: no call raises, and the answer lists, class by class, exactly the objects with this stored type. An object with two of
these types is listed twice. -/
theorem byOclasses_exact {E : Env D V} (hO : E.toOnto.WF) : ∀ (cs : List Iri) {s : Ses D V} (_ : s.root ≠ 0) {st : St D V} {S : Facts D V} (_ : Keeps E st S) (_ : NoClash S s.root),
    ∃ (uss : List (Iri × List Uid)) (s' : Ses D V) (st' : St D V), loadByOclasses E cs s st = (.ok ((uss.flatMap Prod.snd).map some), s', st') ∧ Keeps E st' S ∧ st'.db.dts = st.db.dts ∧ s'.root = s.root ∧
      uss.map Prod.fst = cs ∧ (∀ a ∈ uss, a.2.Nodup ∧ ∀ u, u ∈ a.2 ↔ ∃ f, S f ∧ f.s = said s.root u ∧ f.o = .ent a.1) ∧
      (∀ a ∈ uss, ∀ u ∈ a.2, u ∈ s'.reg ∧ ∀ x, About S s.root u x → x ∈ s'.g) ∧ (∀ v, v ∈ s.reg → v ∈ s'.reg) ∧ ∀ x, About S s.root x.s x → x ∈ s.g → x ∈ s'.g
  | [], s, _, st, S, h, _ => ⟨[], s, st, rfl, h, rfl, rfl, rfl, by simp, by simp, fun _ h => h, fun _ _ h => h⟩
  | c :: cs, s, hw, st, S, h, hc => by
    obtain ⟨us, s1, st1, a1, a2, a3, a4, a5, a6⟩ := byOclass_exact hO c hw h hc
    have hroot := a4.root
    obtain ⟨uss, s2, st2, b1, b2, b3, b4, b9, b5, b6, b7, b8⟩ := byOclasses_exact hO cs (s := s1) (by rw [hroot]; exact hw) a2 (by rw [hroot]; exact hc)
    rw [hroot] at b4 b5 b6 b8
    refine ⟨(c, us) :: uss, s2, st2, ?_, b2, b3.trans a3, b4, by rw [List.map_cons, b9], ?_, ?_, fun v hv => b7 v ((a4.reg v).2 (Or.inl hv)), fun x hx hg => b8 x hx ?_⟩
    · simp only [loadByOclasses, a1, b1, List.flatMap_cons, List.map_append]
    · intro a ha
      rcases List.mem_cons.1 ha with rfl | ha
      · exact ⟨a5, a6⟩
      · exact b5 a ha
    · intro us' hus u hu
      rcases List.mem_cons.1 hus with rfl | hus
      · obtain ⟨f, hf, hs, _⟩ := (a6 u).1 hu
        exact ⟨b7 u ((a4.reg u).2 (Or.inr ⟨hu, f, hf, hs⟩)), fun x hx => b8 x (by rw [about_s hx]; exact hx) (a4.all u hu x hx)⟩
      · exact b6 us' hus u hu
    · by_cases hxu : x.s ∈ us
      · exact a4.all _ hxu x hx
      · exact a4.kept x hg (Or.inl hxu)

end Osp.Persist
