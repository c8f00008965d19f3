import Verif.Persist.First
/-!
# Histories of sessions on one database
-/
namespace Osp.Persist
open Tables

variable {D V : Type} [DecidableEq D] [DecidableEq V]

/-- The state of a history matches the state of the specification. -/
structure Good (E : Env D V) (w : World D V) (z : Spec D V) : Prop where
  root : w.s.root = z.w
  dts : w.st.db.dts = z.dts
  keeps : Keeps E w.st z.S
  clash : z.w ≠ 0 → NoClash z.S z.w

omit [DecidableEq D] [DecidableEq V] in
theorem commit_noClash {w : Uid} {b : Bufs D V} {S : Facts D V} (h : NoClash S w) : NoClash (specCommit w b S) w := by
  have hs : ∀ (e : Entry D V) (f : Fact D V), e.says w f → f.s ≠ .obj w := by
    intro e f he
    rw [says_s he]
    unfold said
    split
    · exact fun q => by cases q
    · rename_i hne; exact fun q => by injection q with q; exact hne q
  rintro f ⟨_, ⟨e, _, he⟩ | ⟨_, hf | ⟨e, _, he⟩⟩⟩
  · exact hs e f he
  · exact h f hf
  · exact hs e f he

theorem step_good {E : Env D V} (hO : E.toOnto.WF) {w : World D V} {z : Spec D V} (h : Good E w z) {e : Ev D V} (he : e.Ok E z) :
    (step E w e).1 = .ok () ∧ Good E (step E w e).2 (specStep z e) := by
  cases e with
  | connect root own dts =>
    obtain ⟨h1, h2, h3⟩ := he
    obtain ⟨s', st', a1, a2, a3, a4, _⟩ := connect_exact hO h1 h3 dts h.keeps h2
    simp only [step, a1]
    exact ⟨trivial, a4, by rw [a3, h.dts]; rfl, a2, fun _ => h2⟩
  | commit b =>
    obtain ⟨a1, a2, a3⟩ := commit_exact hO (w := z.w) h.keeps (by rw [h.dts]; exact he.2)
    rw [← h.root] at a1 a2 a3
    refine ⟨a1, h.root, a2.trans h.dts, ?_, fun hw => commit_noClash (h.clash hw)⟩
    rw [h.root] at a3
    show Keeps E (commit E w.s.root b w.st).2 _
    rw [h.root]
    exact a3
  | load us =>
    obtain ⟨s', st', a1, a2, a3, a4⟩ := loadAll_exact hO us (s := w.s) h.keeps (by rw [h.root]; exact h.clash he.1) he.2
    simp only [step, a1]
    exact ⟨trivial, a4.root.trans h.root, a3.trans h.dts, a2, h.clash⟩
  | byOclass cs =>
    obtain ⟨uss, s', st', a1, a2, a3, a4, _⟩ := byOclasses_exact hO cs (s := w.s) (by rw [h.root]; exact he) h.keeps (by rw [h.root]; exact h.clash he)
    simp only [step, a1]
    exact ⟨trivial, a4.trans h.root, a3.trans h.dts, a2, h.clash⟩

theorem run_good {E : Env D V} (hO : E.toOnto.WF) : ∀ (evs : List (Ev D V)) {w : World D V} {z : Spec D V}, Good E w z → AllOk E z evs →
    raised E w evs = none ∧ Good E (run E w evs) (specRun z evs)
  | [], _, _, h, _ => ⟨rfl, h⟩
  | e :: es, w, z, h, ⟨h1, h2⟩ => by
    obtain ⟨a1, a2⟩ := step_good hO h h1
    obtain ⟨b1, b2⟩ := run_good hO es a2 h2
    refine ⟨?_, b2⟩
    unfold raised
    generalize step E w e = y at a1 b1
    obtain ⟨r, w1⟩ := y
    dsimp only at a1
    subst a1
    exact b1

omit [DecidableEq D] [DecidableEq V] in
theorem start_good (E : Env D V) : Good E World.start specStart :=
  ⟨rfl, rfl, ⟨[], empty_ok E.toOnto [] [] rfl, by simp, by simp [specStart]⟩, fun h => absurd rfl h⟩

/-- **C85.** Start with an empty database and let any sessions, one after the other and each with its own wrapper, commit, load objects and load by class. Nothing raises. Then a new
session with a new wrapper `w` connects, without exception, and loads an object: the answer is the object if something is stored about it and `None` otherwise, and the triples
of the object in the session are exactly what the specification says is stored about it: the last committed triples, with the old wrappers replaced by `w`. -/
theorem history_exact {E : Env D V} (hO : E.toOnto.WF) (evs : List (Ev D V)) (h : AllOk E specStart evs) {w : Uid} (hw : w ≠ 0) {own : List (Triple D V)} (ho : ∀ x ∈ own, x.s = w)
    (dts : List D) (hc : NoClash (specRun specStart evs).S w) {u : Uid} (hu : u ≠ 0) :
    raised E World.start evs = none ∧ ∃ s1 st1 r s2 st2, connect E w own dts (run E World.start evs).st = (.ok (), s1, st1) ∧ loadByIri E u s1 st1 = (.ok r, s2, st2) ∧
      (r = some u ∧ Known (specRun specStart evs).S w u ∨ r = none ∧ ¬ Known (specRun specStart evs).S w u) ∧
      (u ≠ w ∨ Known (specRun specStart evs).S w w → ∀ x, x ∈ s2.g ∧ x.s = u ↔ About (specRun specStart evs).S w u x) := by
  obtain ⟨h1, h2⟩ := run_good hO evs (start_good E) h
  obtain ⟨s1, st1, a1, a2, _, a4, a5, a6, _, a8⟩ := connect_exact hO hw ho dts h2.keeps hc
  obtain ⟨r, s2, st2, b1, _, _, b4, b5, b6⟩ := load_exact hO hu (s := s1) a2
  have bg := b4.g
  rw [a4] at b5 b6 bg
  refine ⟨h1, s1, st1, r, s2, st2, a1, b1, ?_, fun hcond x => ?_⟩
  · by_cases hk : Known (specRun specStart evs).S w u
    · exact Or.inl ⟨b5 hk, hk⟩
    · exact Or.inr ⟨(b6 hk).1, hk⟩
  · constructor
    · rintro ⟨q1, q2⟩
      rcases (bg x).1 q1 with ⟨q3, q4⟩ | q3 | q3
      · rcases a8 x q3 with q | q
        · rwa [q2] at q
        · have e := ho x q
          rw [q2] at e
          rcases hcond with c | c
          · exact absurd e c
          · exact absurd ⟨by rw [e]; exact c, (a5 u).2 (Or.inl e), q2⟩ q4
      · exact q3
      · have := nb_about hc q3
        rwa [q2] at this
    · intro q
      exact ⟨(bg x).2 (Or.inr (Or.inl q)), about_s q⟩

omit [DecidableEq D] [DecidableEq V] in
/-- What a session with wrapper `w'` shows for a triple written by a session with wrapper `w`: the same triple, with `w` replaced by `w'`. -/
theorem seen_of_said (w w' : Uid) (t : Triple D V) : seenTriple w' (saidTriple w t) = swap w w' t := by
  have h : ∀ u, seen w' (said w u) = if u = w then w' else u := by
    intro u
    unfold said
    split <;> rfl
  obtain ⟨s, p, o⟩ := t
  cases o <;> simp only [seenTriple, saidTriple, seenObj, saidObj, swap, swapObj, h]

omit [DecidableEq D] [DecidableEq V] in
/-- **C85.** What the specification stores about an object that a session with wrapper `w` just added or updated, as a session with wrapper `w'` sees it: its triples, with `w` replaced
by `w'` (in the case of an addition, if nothing was stored about the object). -/
theorem committed_seen {w w' : Uid} {b : Bufs D V} {S : Facts D V} {e : Entry D V} (hn : (b.updated.map Entry.u).Nodup) (ha : (b.added.map Entry.u).Nodup) (hd : e.u ∉ b.deleted)
    (he : e ∈ b.updated ∨ e ∈ b.added ∧ (∀ k ∈ b.updated, k.u ≠ e.u) ∧ ¬ Known S w e.u) (hw : e.u = w ∨ e.u ≠ w') (x : Triple D V) :
    About (specCommit w b S) w' (if e.u = w then w' else e.u) x ↔ ∃ y ∈ e.c, x = swap w w' ⟨e.u, y.1, y.2⟩ := by
  have hsd : said w' (if e.u = w then w' else e.u) = said w e.u := by
    by_cases h : e.u = w
    · simp [said, h]
    · rcases hw with hw | hw
      · exact absurd hw h
      · simp [said, h, hw]
  have hinj : ∀ {l : List (Entry D V)}, (l.map Entry.u).Nodup → ∀ {k}, e ∈ l → k ∈ l → k.u = e.u → k = e := by
    intro l hl k h1 h2 h3
    exact nodup_map_inj hl h2 h1 h3
  constructor
  · rintro ⟨f, ⟨q1, q2⟩, hf, rfl⟩
    rw [hsd] at hf
    have key : ∀ k : Entry D V, k = e → k.says w f → ∃ y ∈ e.c, seenTriple w' f = swap w w' ⟨e.u, y.1, y.2⟩ := by
      rintro k rfl ⟨y, hy, rfl⟩
      exact ⟨y, hy, seen_of_said w w' _⟩
    rcases q2 with ⟨k, hk, hs⟩ | ⟨q3, q4⟩
    · have e1 : k.u = e.u := said_inj ((says_s hs).symm.trans hf)
      rcases he with he | he
      · exact key k (hinj hn he hk e1) hs
      · exact absurd e1 (he.2.1 k hk)
    · rcases he with he | he
      · exact absurd hf (q3 e he)
      · rcases q4 with q4 | ⟨k, hk, hs⟩
        · exact absurd ⟨f, q4, hf⟩ he.2.2
        · have e1 : k.u = e.u := said_inj ((says_s hs).symm.trans hf)
          exact key k (hinj ha he.1 hk e1) hs
  · rintro ⟨y, hy, rfl⟩
    refine ⟨saidTriple w ⟨e.u, y.1, y.2⟩, ⟨?_, ?_⟩, hsd.symm, (seen_of_said w w' _).symm⟩
    · intro u hu hh
      have : e.u = u := said_inj hh
      rw [this] at hd
      exact hd hu
    · rcases he with he | he
      · exact Or.inl ⟨e, he, y, hy, rfl⟩
      · refine Or.inr ⟨fun k hk hh => ?_, Or.inr ⟨e, he.1, y, hy, rfl⟩⟩
        have : e.u = k.u := said_inj hh
        exact he.2.1 k hk this.symm

end Osp.Persist
