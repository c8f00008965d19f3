import Verif.Full.Spec
/-!
# Everything below the wrapper is loaded
-/
namespace Osp.Full
open Persist (Env Facts About Known NbTypes Loaded Keeps seen said seenObj seenTriple saidObj saidTriple)
open Tables (Obj St Uid)

variable {D V : Type}

/-- What holds at every moment of the traversal. -/
structure Inv (S : Facts D V) (s0 s : Persist.Ses D V) : Prop where
  root : s.root = s0.root
  sub : ∀ u ∈ s0.reg, u ∈ s.reg
  reg : ∀ u ∈ s.reg, u ∈ s0.reg ∨ Known S s0.root u
  tr : ∀ u ∈ s.reg, ∀ x, x ∈ s.g ∧ x.s = u ↔ Tr S s0 u x
  others : ∀ x ∈ s.g, x.s ∉ s.reg → About S s0.root x.s x
  gsub : ∀ x ∈ s0.g, x ∈ s.g
  only : ∀ x ∈ s.g, x ∈ s0.g ∨ About S s0.root x.s x

theorem Fresh.inv {S : Facts D V} {s : Persist.Ses D V} (h : Fresh S s) : Inv S s s where
  root := rfl
  sub := fun _ h => h
  reg := fun _ h => Or.inl h
  tr := fun u hu x => by rw [Tr, if_pos hu]
  others := h.others
  gsub := fun _ h => h
  only := fun _ h => Or.inl h

theorem Inv.load {S : Facts D V} {s0 s s' : Persist.Ses D V} (hF : Fresh S s0) (h : Inv S s0 s) {u : Uid} (hu : u ∉ s0.reg) (hk : Known S s0.root u) (hl : Loaded S u s s') :
    Inv S s0 s' ∧ u ∈ s'.reg ∧ (∀ v ∈ s.reg, v ∈ s'.reg) ∧ ∀ v ∈ s'.reg, v ∈ s.reg ∨ v = u := by
  have hr := h.root
  have hreg := hl.reg
  have hg := hl.g
  rw [hr] at hreg hg
  have hnb : ∀ x, NbTypes S s0.root u x → About S s0.root x.s x := fun x hx => Persist.nb_about hF.clash hx
  have hab : ∀ x, About S s0.root u x → x.s = u := fun x hx => Persist.about_s hx
  have hu' : u ∈ s'.reg := (hreg u).2 (Or.inr ⟨rfl, hk⟩)
  have htypes : ∀ x, NbTypes S s0.root u x → x.s ∈ s.reg → x ∈ s.g := by
    intro x hx hv
    have ha := hnb x hx
    obtain ⟨_, _, _, _, _, k, i, _, _, hko, rfl⟩ := hx
    by_cases h0 : (seenTriple s0.root k).s ∈ s0.reg
    · exact h.gsub _ (hF.types _ ha h0 ⟨i, by show seenObj s0.root k.o = _; rw [hko]; rfl⟩)
    · exact ((h.tr _ hv _).2 (by rw [Tr, if_neg h0]; exact ha)).1
  have hnew : ∀ v ∈ s'.reg, v ∈ s.reg ∨ v = u := fun v hv => ((hreg v).1 hv).elim Or.inl (fun h => Or.inr h.1)
  refine ⟨⟨hl.root.trans hr, fun v hv => (hreg v).2 (Or.inl (h.sub v hv)), ?_, ?_, ?_, ?_, ?_⟩, hu', fun v hv => (hreg v).2 (Or.inl hv), hnew⟩
  · intro v hv
    rcases hnew v hv with h1 | rfl
    · exact h.reg v h1
    · exact Or.inr hk
  · intro v hv x
    by_cases e : v = u
    · subst e
      rw [Tr, if_neg hu, hg]
      constructor
      · rintro ⟨⟨h1, h2⟩ | h1 | h1, hx⟩
        · have hn : v ∉ s.reg := fun hv => h2 ⟨hk, hv, hx⟩
          have := h.others x h1 (by rw [hx]; exact hn)
          rwa [hx] at this
        · exact h1
        · have := hnb x h1
          rwa [hx] at this
      · exact fun h1 => ⟨Or.inr (Or.inl h1), hab x h1⟩
    · have hv' : v ∈ s.reg := (hnew v hv).resolve_right e
      rw [← h.tr v hv', hg]
      constructor
      · rintro ⟨⟨h1, _⟩ | h1 | h1, hx⟩
        · exact ⟨h1, hx⟩
        · exact absurd (hx.symm.trans (hab x h1)) e
        · exact ⟨htypes x h1 (by rw [hx]; exact hv'), hx⟩
      · rintro ⟨h1, hx⟩
        exact ⟨Or.inl ⟨h1, fun h2 => e (hx.symm.trans h2.2.2)⟩, hx⟩
  · intro x hx hn
    rcases (hg x).1 hx with ⟨h1, _⟩ | h1 | h1
    · exact h.others x h1 (fun h2 => hn ((hreg _).2 (Or.inl h2)))
    · have := hab x h1
      rw [this]
      exact h1
    · exact hnb x h1
  · intro x hx
    rw [hg]
    by_cases h1 : u ∈ s.reg ∧ x.s = u
    · by_cases h2 : x.s ∈ s0.reg
      · exact absurd (h1.2 ▸ h2) hu
      · have := hF.others x hx h2
        rw [h1.2] at this
        exact Or.inr (Or.inl this)
    · exact Or.inl ⟨h.gsub x hx, fun h2 => h1 h2.2⟩
  · intro x hx
    rcases (hg x).1 hx with ⟨h1, _⟩ | h1 | h1
    · exact h.only x h1
    · refine Or.inr ?_
      rw [hab x h1]
      exact h1
    · exact Or.inr (hnb x h1)

/-- How many objects of a list are not visited. -/
def rem (U vis : List Uid) : Nat := (U.filter (fun v => decide (v ∉ vis))).length

theorem rem_mono {U vis vis' : List Uid} (h : ∀ v ∈ vis, v ∈ vis') : rem U vis' ≤ rem U vis := by
  induction U with
  | nil => exact Nat.le_refl _
  | cons a U ih =>
    unfold rem at *
    by_cases h1 : a ∈ vis
    · simpa [h1, h a h1] using ih
    · by_cases h2 : a ∈ vis'
      · simp only [List.filter_cons, h1, h2, not_true, not_false_iff, decide_false, decide_true, if_true, if_false, List.length_cons, Bool.false_eq_true]
        omega
      · simp only [List.filter_cons, h1, h2, not_false_iff, decide_true, if_true, List.length_cons]
        omega

theorem rem_lt {U vis : List Uid} {u : Uid} (h1 : u ∈ U) (h2 : u ∉ vis) : rem U (u :: vis) < rem U vis := by
  induction U with
  | nil => cases h1
  | cons a U ih =>
    have hm : rem U (u :: vis) ≤ rem U vis := rem_mono (fun v hv => List.mem_cons_of_mem _ hv)
    unfold rem at *
    by_cases e : a = u
    · subst e
      simp only [List.filter_cons, h2, List.mem_cons_self, not_true, not_false_iff, decide_false, decide_true, if_true, if_false, List.length_cons, Bool.false_eq_true]
      omega
    · have h3 := ih ((List.mem_cons.1 h1).resolve_left (fun h => e h.symm))
      by_cases h4 : a ∈ vis
      · simpa [List.filter_cons, h4] using h3
      · simp only [List.filter_cons, h4, e, List.mem_cons, or_self, not_false_iff, decide_true, if_true, List.length_cons]
        simp only [List.mem_cons] at h3
        omega

theorem mem_links {g : List (Tables.Triple D V)} {u v : Uid} : v ∈ links g u ↔ ∃ p, (⟨u, p, .cuds v⟩ : Tables.Triple D V) ∈ g := by
  simp only [links, List.mem_filterMap, List.mem_filter, decide_eq_true_eq]
  constructor
  · rintro ⟨⟨s, p, o⟩, ⟨h1, h2⟩, h3⟩
    dsimp only at h2 h3
    subst h2
    cases o with
    | cuds y =>
      dsimp only at h3
      cases h3
      exact ⟨p, h1⟩
    | ent i => cases h3
    | lit d v => cases h3
  · rintro ⟨p, h⟩
    exact ⟨_, ⟨h, rfl⟩, rfl⟩

theorem Inv.links {S : Facts D V} {s0 s : Persist.Ses D V} (h : Inv S s0 s) {u : Uid} (hu : u ∈ s.reg) (v : Uid) : v ∈ links s.g u ↔ Link S s0 u v := by
  rw [mem_links]
  exact exists_congr fun p => by rw [← h.tr u hu]; exact ⟨fun h => ⟨h, rfl⟩, fun h => h.1⟩

variable [DecidableEq D] [DecidableEq V]

omit [DecidableEq D] [DecidableEq V] in
theorem link_ne_zero {E : Env D V} {S : Facts D V} {s0 : Persist.Ses D V} (hF : Fresh S s0) {st : St D V} (hK : Keeps E st S) {u v : Uid} (h : Link S s0 u v) : v ≠ 0 := by
  obtain ⟨p, h⟩ := h
  unfold Tr at h
  split at h
  · rintro rfl
    exact hF.zero _ h.1 rfl
  · obtain ⟨f, hf, _, e⟩ := h
    obtain ⟨L, _, _, hL⟩ := hK
    obtain ⟨t, _, rfl⟩ := (hL f).1 hf
    have ho : (.cuds v : Obj D V) = seenObj s0.root (saidObj 0 t.o) := congrArg Tables.Triple.o e
    cases hto : t.o with
    | cuds y =>
      rw [hto] at ho
      have e2 : v = seen s0.root (said 0 y) := by injection ho
      rw [e2]
      unfold said
      split
      · exact hF.root0
      · assumption
    | ent i => rw [hto] at ho; cases ho
    | lit d y => rw [hto] at ho; cases ho

/-- What a finished search leaves: `o` are the newly found objects. -/
structure Found (S : Facts D V) (s0 : Persist.Ses D V) (vis : List Uid) (s : Persist.Ses D V) (o vis' : List Uid) (s' : Persist.Ses D V) : Prop where
  mono : ∀ v ∈ s.reg, v ∈ s'.reg
  marks : ∀ v, v ∈ vis' ↔ v ∈ vis ∨ v ∈ o
  new : ∀ v ∈ o, v ∉ vis ∧ Reach S s0 s0.root v ∧ v ∈ s'.reg
  nodup : o.Nodup
  closed : ∀ v ∈ o, ∀ y, Link S s0 v y → y ∈ vis'
  reg : ∀ v ∈ s'.reg, v ∈ s.reg ∨ v ∈ vis'

/-- The contract of a search from `u`. -/
def Good (E : Env D V) (S : Facts D V) (s0 : Persist.Ses D V) (U : List Uid) (n : Nat)
    (f : List Uid → Uid → Persist.Ses D V → St D V → Except PyErr (List Uid × List Uid) × Persist.Ses D V × St D V) : Prop :=
  ∀ vis u s st, Keeps E st S → Inv S s0 s → Reach S s0 s0.root u → u ∉ vis → u ∈ s.reg → rem U vis ≤ n →
    ∃ r s' st', f vis u s st = (r, s', st') ∧ Keeps E st' S ∧ st'.db.dts = st.db.dts ∧ Inv S s0 s' ∧
      ((r = .error .attributeError ∧ Dangling S s0 s0.root) ∨ ∃ o vis', r = .ok (o, vis') ∧ u ∈ o ∧ Found S s0 vis s o vis' s')

theorem walk_ok {E : Env D V} (hO : E.toOnto.WF) {S : Facts D V} {s0 : Persist.Ses D V} (hF : Fresh S s0) {U : List Uid} {n : Nat}
    {f : List Uid → Uid → Persist.Ses D V → St D V → Except PyErr (List Uid × List Uid) × Persist.Ses D V × St D V} (hf : Good E S s0 U n f)
    {u : Uid} (hu : Reach S s0 s0.root u) {missing : List Uid} (hm : ∀ y ∈ missing, y ∉ s0.reg) :
    ∀ (us out vis : List Uid) (s : Persist.Ses D V) (st : St D V), Keeps E st S → Inv S s0 s → (∀ y ∈ us, Link S s0 u y) → (∀ y ∈ us, y ∉ missing → y ∈ s.reg) →
      rem U vis ≤ n →
      ∃ r s' st', walk E f missing us out vis s st = (r, s', st') ∧ Keeps E st' S ∧ st'.db.dts = st.db.dts ∧ Inv S s0 s' ∧
        ((r = .error .attributeError ∧ Dangling S s0 s0.root) ∨
          ∃ o vis', r = .ok (out ++ o, vis') ∧ (∀ y ∈ us, y ∈ vis') ∧ Found S s0 vis s o vis' s')
  | [], out, vis, s, st, hK, hI, _, _, _ =>
    ⟨_, s, st, rfl, hK, rfl, hI, Or.inr ⟨[], vis, by rw [List.append_nil], by simp, fun _ h => h, by simp, by simp, List.nodup_nil, by simp, fun _ h => Or.inl h⟩⟩
  | y :: us, out, vis, s, st, hK, hI, hl, hr, hn => by
    have hy := hl y List.mem_cons_self
    have hry : Reach S s0 s0.root y := .step hu hy
    -- the child
    have hload : ∃ r s1 st1, (if y ∈ missing then Persist.loadByIri E y s st else (.ok (some y), s, st)) = (r, s1, st1) ∧ Keeps E st1 S ∧ st1.db.dts = st.db.dts ∧ Inv S s0 s1 ∧
        (∀ v ∈ s.reg, v ∈ s1.reg) ∧ ((r = .ok none ∧ Dangling S s0 s0.root) ∨ (r = .ok (some y) ∧ y ∈ s1.reg ∧ ∀ v ∈ s1.reg, v ∈ s.reg ∨ v = y)) := by
      by_cases hmy : y ∈ missing
      · rw [if_pos hmy]
        obtain ⟨r, s1, st1, a1, a2, a3, a4, a5, a6⟩ := Persist.load_exact hO (link_ne_zero hF hK hy) (s := s) hK
        rw [hI.root] at a5 a6
        by_cases hk : Known S s0.root y
        · obtain ⟨b1, b2, b3, b4⟩ := hI.load hF (hm y hmy) hk a4
          refine ⟨_, s1, st1, a1, a2, a3, b1, b3, Or.inr ⟨?_, b2, b4⟩⟩
          rw [a5 hk]
        · obtain ⟨c1, c2⟩ := a6 hk
          refine ⟨_, s1, st1, a1, a2, a3, by rw [c2]; exact hI, by rw [c2]; exact fun _ h => h, Or.inl ⟨by rw [c1], u, y, hu, hy, hm y hmy, hk⟩⟩
      · rw [if_neg hmy]
        exact ⟨_, s, st, rfl, hK, rfl, hI, fun _ h => h, Or.inr ⟨rfl, hr y List.mem_cons_self hmy, fun _ h => Or.inl h⟩⟩
    obtain ⟨r, s1, st1, a1, a2, a3, a4, a5, a6⟩ := hload
    rcases a6 with ⟨rfl, hd⟩ | ⟨rfl, hy1, hnew⟩
    · refine ⟨.error .attributeError, s1, st1, ?_, a2, a3, a4, Or.inl ⟨rfl, hd⟩⟩
      rw [walk, a1]
    · have hl' : ∀ z ∈ us, Link S s0 u z := fun z hz => hl z (List.mem_cons_of_mem _ hz)
      by_cases hv : y ∈ vis
      · obtain ⟨r, s2, st2, b1, b2, b3, b4, b5⟩ := walk_ok hO hF hf hu hm us out vis s1 st1 a2 a4 hl' (fun z hz h => a5 z (hr z (List.mem_cons_of_mem _ hz) h)) hn
        refine ⟨r, s2, st2, ?_, b2, b3.trans a3, b4, b5.imp id ?_⟩
        · rw [walk, a1]
          simp only [hv, if_true, b1]
        · rintro ⟨o, vis', rfl, c1, c2⟩
          refine ⟨o, vis', rfl, ?_, fun v h => c2.mono v (a5 v h), c2.marks, c2.new, c2.nodup, c2.closed, ?_⟩
          · intro z hz
            rcases List.mem_cons.1 hz with rfl | hz
            · exact (c2.marks z).2 (Or.inl hv)
            · exact c1 z hz
          · intro v h
            rcases c2.reg v h with h | h
            · rcases hnew v h with h | rfl
              · exact Or.inl h
              · exact Or.inr ((c2.marks v).2 (Or.inl hv))
            · exact Or.inr h
      · obtain ⟨r, s2, st2, b1, b2, b3, b4, b5⟩ := hf vis y s1 st1 a2 a4 hry hv hy1 hn
        rcases b5 with ⟨rfl, hd⟩ | ⟨o, vis', rfl, ho, hfd⟩
        · refine ⟨.error .attributeError, s2, st2, ?_, b2, b3.trans a3, b4, Or.inl ⟨rfl, hd⟩⟩
          rw [walk, a1]
          simp only [hv, if_false, b1]
        · have hn2 : rem U vis' ≤ n := Nat.le_trans (rem_mono (fun v h => (hfd.marks v).2 (Or.inl h))) hn
          obtain ⟨r, s3, st3, c1, c2, c3, c4, c5⟩ := walk_ok hO hF hf hu hm us (out ++ o) vis' s2 st2 b2 b4 hl'
            (fun z hz h => hfd.mono z (a5 z (hr z (List.mem_cons_of_mem _ hz) h))) hn2
          refine ⟨r, s3, st3, ?_, c2, (c3.trans b3).trans a3, c4, c5.imp id ?_⟩
          · rw [walk, a1]
            simp only [hv, if_false, b1, c1]
          · rintro ⟨o2, vis2, rfl, d1, d2⟩
            refine ⟨o ++ o2, vis2, by rw [List.append_assoc], ?_, fun v h => d2.mono v (hfd.mono v (a5 v h)), ?_, ?_, ?_, ?_, ?_⟩
            · intro z hz
              rcases List.mem_cons.1 hz with rfl | hz
              · exact (d2.marks z).2 (Or.inl ((hfd.marks z).2 (Or.inr ho)))
              · exact d1 z hz
            · intro v
              rw [d2.marks, hfd.marks, List.mem_append, or_assoc]
            · intro v h
              rcases List.mem_append.1 h with h | h
              · obtain ⟨e1, e2, e3⟩ := hfd.new v h
                exact ⟨e1, e2, d2.mono v e3⟩
              · obtain ⟨e1, e2, e3⟩ := d2.new v h
                exact ⟨fun h' => e1 ((hfd.marks v).2 (Or.inl h')), e2, e3⟩
            · refine List.nodup_append.2 ⟨hfd.nodup, d2.nodup, ?_⟩
              rintro a ha b hb rfl
              exact (d2.new a hb).1 ((hfd.marks a).2 (Or.inr ha))
            · intro v h z hz
              rcases List.mem_append.1 h with h | h
              · exact (d2.marks z).2 (Or.inl (hfd.closed v h z hz))
              · exact d2.closed v h z hz
            · intro v h
              rcases d2.reg v h with h | h
              · rcases hfd.reg v h with h | h
                · rcases hnew v h with h | rfl
                  · exact Or.inl h
                  · exact Or.inr ((d2.marks v).2 (Or.inl ((hfd.marks v).2 (Or.inr ho))))
                · exact Or.inr ((d2.marks v).2 (Or.inl h))
              · exact Or.inr h

theorem find_ok {E : Env D V} (hO : E.toOnto.WF) {S : Facts D V} {s0 : Persist.Ses D V} (hF : Fresh S s0) {U : List Uid} (hU : ∀ v, Reach S s0 s0.root v → v ∈ U) :
    ∀ n, Good E S s0 U n (find E n)
  | 0 => by
    intro vis u s st _ _ hu hv _ hn
    have := rem_lt (hU u hu) hv
    omega
  | n + 1 => by
    intro vis u s st hK hI hu hv hr hn
    have hlt := rem_lt (hU u hu) hv
    have hlinks : ∀ y, y ∈ E.order (links s.g u) ↔ Link S s0 u y := fun y => by rw [E.order_mem, hI.links hr]
    obtain ⟨r, s1, st1, a1, a2, a3, a4, a5⟩ := walk_ok hO hF (find_ok hO hF hU n) hu
      (missing := (E.order (links s.g u)).filter (fun v => decide (v ∉ s.reg)))
      (fun y hy h0 => by simp only [List.mem_filter, decide_eq_true_eq] at hy; exact hy.2 (hI.sub y h0))
      (E.order (links s.g u)) [u] (u :: vis) s st hK hI (fun y hy => (hlinks y).1 hy)
      (fun y hy h => by
        simp only [List.mem_filter, decide_eq_true_eq, not_and, Classical.not_not] at h
        exact h hy)
      (by omega)
    refine ⟨r, s1, st1, a1, a2, a3, a4, a5.imp id ?_⟩
    rintro ⟨o, vis', rfl, b1, b2⟩
    have hu' : u ∈ vis' := (b2.marks u).2 (Or.inl List.mem_cons_self)
    refine ⟨[u] ++ o, vis', rfl, by simp, b2.mono, ?_, ?_, ?_, ?_, b2.reg⟩
    · intro v
      rw [b2.marks]
      simp only [List.mem_cons, List.singleton_append]
      constructor
      · rintro ((h | h) | h)
        · exact Or.inr (Or.inl h)
        · exact Or.inl h
        · exact Or.inr (Or.inr h)
      · rintro (h | h | h)
        · exact Or.inl (Or.inr h)
        · exact Or.inl (Or.inl h)
        · exact Or.inr h
    · intro v h
      rcases List.mem_cons.1 h with rfl | h
      · exact ⟨hv, hu, b2.mono _ hr⟩
      · obtain ⟨e1, e2, e3⟩ := b2.new v h
        exact ⟨fun h' => e1 (List.mem_cons_of_mem _ h'), e2, e3⟩
    · refine List.nodup_cons.2 ⟨fun h => (b2.new u h).1 List.mem_cons_self, b2.nodup⟩
    · intro v h z hz
      rcases List.mem_cons.1 h with rfl | h
      · exact b1 z ((hlinks z).2 hz)
      · exact b2.closed v h z hz

omit [DecidableEq D] [DecidableEq V] in
/-- Finitely many objects are below the wrapper. -/
theorem finite {E : Env D V} {S : Facts D V} {s0 : Persist.Ses D V} {st : St D V} (hK : Keeps E st S) : ∃ U : List Uid, ∀ v, Reach S s0 s0.root v → v ∈ U := by
  obtain ⟨L, _, _, hL⟩ := hK
  let pick : Tables.Triple D V → Option Uid := fun x => match x.o with
    | .cuds v => some v
    | _ => none
  refine ⟨s0.root :: (s0.g ++ L.map (fun t => seenTriple s0.root (saidTriple 0 t))).filterMap pick, fun v hv => ?_⟩
  cases hv with
  | refl => exact List.mem_cons_self
  | @step u _ _ h =>
    refine List.mem_cons_of_mem _ ?_
    obtain ⟨p, h⟩ := h
    rw [List.mem_filterMap]
    refine ⟨⟨u, p, .cuds v⟩, ?_, rfl⟩
    unfold Tr at h
    split at h
    · exact List.mem_append_left _ h.1
    · obtain ⟨f, hf, _, e⟩ := h
      obtain ⟨t, ht, rfl⟩ := (hL f).1 hf
      rw [e]
      exact List.mem_append_right _ (List.mem_map_of_mem ht)

/-- **C86.** The export of a session on a database. If an object below the wrapper is related to an object that is nowhere, the call raises an AttributeError. Otherwise it returns
the graph of the session, into which everything below the wrapper has been loaded: of each of these objects the graph has exactly the triples the session had, or, if the
session had not loaded it, exactly what is stored; beyond that nothing has been added except what is stored. What is stored does not change. -/
theorem full_exact {E : Env D V} (hO : E.toOnto.WF) {S : Facts D V} {s : Persist.Ses D V} (hF : Fresh S s) {st : St D V} (hK : Keeps E st S) :
    ∃ N, ∀ n, N ≤ n → ∃ r s' st', fullGraph E n s st = (r, s', st') ∧ Keeps E st' S ∧ st'.db.dts = st.db.dts ∧
      (Dangling S s s.root → r = .error .attributeError) ∧
      (¬ Dangling S s s.root → r = .ok s'.g ∧ s'.root = s.root ∧ (∀ u, u ∈ s'.reg ↔ u ∈ s.reg ∨ Reach S s s.root u) ∧
        (∀ u, Reach S s s.root u → ∀ x, x ∈ s'.g ∧ x.s = u ↔ Tr S s u x) ∧ (∀ x ∈ s.g, x ∈ s'.g) ∧ ∀ x ∈ s'.g, x ∈ s.g ∨ About S s.root x.s x) := by
  obtain ⟨U, hU⟩ := finite (s0 := s) hK
  refine ⟨rem U [], fun n hn => ?_⟩
  obtain ⟨r, s', st', a1, a2, a3, a4, a5⟩ := find_ok hO hF hU n [] s.root s st hK hF.inv .refl (by simp) hF.root hn
  rcases a5 with ⟨rfl, hd⟩ | ⟨o, vis', rfl, ho, hf⟩
  · exact ⟨_, s', st', by rw [fullGraph, a1], a2, a3, fun _ => rfl, fun h => absurd hd h⟩
  · have hall : ∀ u, Reach S s s.root u → u ∈ o := by
      intro u hu
      induction hu with
      | refl => exact ho
      | step _ hl ih =>
        have := (hf.marks _).1 (hf.closed _ ih _ hl)
        simpa using this
    have hnd : ¬ Dangling S s s.root := by
      rintro ⟨u, v, h1, h2, h3, h4⟩
      have := (hf.new v (hall v (.step h1 h2))).2.2
      exact (a4.reg v this).elim h3 h4
    refine ⟨_, s', st', by rw [fullGraph, a1], a2, a3, fun h => absurd h hnd, fun _ => ⟨rfl, a4.root, fun u => ?_, fun u hu x => ?_, a4.gsub, a4.only⟩⟩
    · constructor
      · intro h
        rcases hf.reg u h with h | h
        · exact Or.inl h
        · have h := (hf.marks u).1 h
          simp only [List.not_mem_nil, false_or] at h
          exact Or.inr (hf.new u h).2.1
      · rintro (h | h)
        · exact hf.mono u h
        · exact (hf.new u (hall u h)).2.2
    · exact a4.tr u (hf.new u (hall u hu)).2.2 x

end Osp.Full
