import Verif.Full.Walk
import Verif.Full.Graph
import Verif.Persist.History
/-!
# The export of a database
-/
namespace Osp.Full
open Persist (Env Facts About Known NoClash Keeps Node Fact seen said seenObj seenTriple saidObj saidTriple)
open Tables (Obj St Uid)

variable {D V : Type} [DecidableEq D] [DecidableEq V]

omit [DecidableEq D] [DecidableEq V] in
/-- An object that was loaded in between has, when it is loaded again, the same triples as before. -/
theorem again {S : Facts D V} {s0 s s' : Persist.Ses D V} (hF : Fresh S s0) (h : Inv S s0 s) {u : Uid} (hu : u ∉ s0.reg) (hr : u ∈ s.reg) (hl : Persist.Loaded S u s s') (x : Tables.Triple D V) :
    x ∈ s'.g ∧ x.s = u ↔ x ∈ s.g ∧ x.s = u := by
  obtain ⟨h1, h2, _, _⟩ := h.load hF hu ((h.reg u hr).resolve_left hu) hl
  rw [h1.tr u h2, h.tr u hr]

omit [DecidableEq D] [DecidableEq V] in
theorem stored_ne_zero {E : Env D V} {S : Facts D V} {st : St D V} (hK : Keeps E st S) {w : Uid} (hw : w ≠ 0) {f : Fact D V} (hf : S f) : seenObj w f.o ≠ .cuds 0 := by
  obtain ⟨L, _, _, hL⟩ := hK
  obtain ⟨t, _, rfl⟩ := (hL f).1 hf
  show seenObj w (saidObj 0 t.o) ≠ _
  cases hto : t.o with
  | cuds y =>
    intro e
    have e : seen w (said 0 y) = 0 := by injection e
    unfold said at e
    split at e
    · exact hw e
    · contradiction
  | ent i => exact fun e => by cases e
  | lit d y => exact fun e => by cases e

/-- A new session on a database is in the scope of `full_exact`. -/
theorem connect_fresh {E : Env D V} (hO : E.toOnto.WF) {w : Uid} (hw : w ≠ 0) {own : List (Tables.Triple D V)} (ho : ∀ x ∈ own, x.s = w ∧ x.o ≠ .cuds 0) (dts : List D) {st : St D V}
    {S : Facts D V} (h : Keeps E st S) (hc : NoClash S w) :
    ∃ s' st', Persist.connect E w own dts st = (.ok (), s', st') ∧ Keeps E st' S ∧ s'.root = w ∧ Fresh S s' ∧
      (Known S w w → ∀ u x, Tr S s' u x ↔ About S w u x) ∧ ∀ x ∈ s'.g, About S w x.s x ∨ x ∈ own := by
  obtain ⟨s', st', a1, a2, _, a4, a5, a6, a7, a8⟩ := Persist.connect_exact hO hw (fun x hx => (ho x hx).1) dts h hc
  have hwr : w ∈ s'.reg := (a5 w).2 (Or.inl rfl)
  refine ⟨s', st', a1, a2, a4, ⟨by rw [a4]; exact hwr, by rw [a4]; exact hw, by rw [a4]; exact hc, ?_, ?_, ?_⟩, ?_, a8⟩
  · intro x hx hn
    rw [a4]
    rcases a8 x hx with h1 | h1
    · exact h1
    · exact absurd (by rw [(ho x h1).1]; exact hwr) hn
  · intro x hx hr _
    rw [a4] at hx
    refine ((a6 x.s hr ?_ x).2 hx).1
    by_cases e : x.s = w
    · rw [e] at hx
      exact Or.inr (Persist.known_iff.2 ⟨x, hx⟩)
    · exact Or.inl e
  · intro x hx
    rcases a8 x hx with ⟨f, hf, _, rfl⟩ | h1
    · exact stored_ne_zero h hw hf
    · exact (ho x h1).2
  · intro hk u x
    unfold Tr
    split
    · rename_i hr
      exact a6 u hr (Or.inr hk) x
    · rw [a4]

omit [DecidableEq D] [DecidableEq V] in
theorem seen_inj {w : Uid} {n m : Node} (h1 : n ≠ .obj w) (h2 : m ≠ .obj w) (h : seen w n = seen w m) : n = m := by
  cases n with
  | root => cases m with
    | root => rfl
    | obj v => exact absurd (congrArg Node.obj (show v = w from h.symm)) h2
  | obj u => cases m with
    | root => exact absurd (congrArg Node.obj (show u = w from h)) h1
    | obj v => exact congrArg Node.obj h

omit [DecidableEq D] [DecidableEq V] in
theorem said_seen {w : Uid} {n : Node} (h : n ≠ .obj w) : said w (seen w n) = n := by
  cases n with
  | root => simp [said, seen]
  | obj u =>
    have : u ≠ w := fun e => h (by rw [e])
    simp [said, seen, this]

omit [DecidableEq D] [DecidableEq V] in
/-- What the session can reach is what is stored below the wrapper. -/
theorem reach_below {S : Facts D V} {s : Persist.Ses D V} (htr : ∀ u x, Tr S s u x ↔ About S s.root u x) (hc : NoClash S s.root) (hcomp : Complete S) (u : Uid) :
    Reach S s s.root u ↔ ∃ n, Below S n ∧ u = seen s.root n := by
  constructor
  · intro h
    have h : ∃ n, Below S n ∧ u = seen s.root n ∧ n ≠ .obj s.root := by
      induction h with
      | refl => exact ⟨.root, .root, rfl, fun e => by cases e⟩
      | step _ hl ih =>
        obtain ⟨n, h1, rfl, h0⟩ := ih
        obtain ⟨p, hp⟩ := hl
        obtain ⟨f, hf, hs, e⟩ := (htr _ _).1 hp
        rw [said_seen h0] at hs
        have ho := congrArg Tables.Triple.o e
        change Obj.cuds _ = seenObj s.root f.o at ho
        cases hfo : f.o with
        | node m =>
          rw [hfo] at ho
          have hb : Below S m := .step (hs ▸ h1) hf hfo
          obtain ⟨k, hk, hks⟩ := hcomp f m hf (hs ▸ h1) hfo
          exact ⟨m, hb, by injection ho, hks ▸ hc k hk⟩
        | ent i => rw [hfo] at ho; cases ho
        | lit d v => rw [hfo] at ho; cases ho
    obtain ⟨n, h1, h2, _⟩ := h
    exact ⟨n, h1, h2⟩
  · rintro ⟨n, h, rfl⟩
    induction h with
    | root => exact .refl
    | @step f n _ hf hn ih =>
      refine .step ih ⟨f.p, (htr _ _).2 ⟨f, hf, (said_seen (hc f hf)).symm, ?_⟩⟩
      show _ = (⟨seen s.root f.s, f.p, seenObj s.root f.o⟩ : Tables.Triple D V)
      rw [hn]
      rfl

/-- **C86.** A new session on a database, with a new wrapper, is exported (with any way to write down triples): if something is stored about the wrapper and about every object that
is related to an object below it, the export does not raise, and it has, besides the ontology, everything that is stored about the objects below the wrapper, and nothing
that is not stored. If moreover everything stored is about objects below the wrapper, the export has exactly the ontology and what is stored. -/
theorem database_exact {E : Env D V} (hO : E.toOnto.WF) {w : Uid} (hw : w ≠ 0) {own : List (Tables.Triple D V)} (ho : ∀ x ∈ own, x.s = w ∧ x.o ≠ .cuds 0) (dts : List D) {st : St D V}
    {S : Facts D V} (h : Keeps E st S) (hc : NoClash S w) (hroot : ∃ f, S f ∧ f.s = .root) (hcomp : Complete S) (enc : Tables.Triple D V → Triple) (onto core : Graph) :
    ∃ N, ∀ n, N ≤ n → ∃ s' st' g s'' st'' r, Persist.connect E w own dts st = (.ok (), s', st') ∧ fullGraph E n s' st' = (.ok g, s'', st'') ∧
      Keeps E st'' S ∧ getRdfGraph onto core (.session (.ok (g.map enc))) false = .ok r ∧
      (∀ f, S f → Below S f.s → enc (seenTriple w f) ∈ r) ∧ (∀ x ∈ r, x ∈ onto ∨ ∃ f, S f ∧ x = enc (seenTriple w f)) ∧
      ((∀ f, S f → Below S f.s) → ∀ t, t ∈ g ↔ ∃ f, S f ∧ t = seenTriple w f) := by
  obtain ⟨s', st', a1, a2, a3, a4, a5, a6⟩ := connect_fresh hO hw ho dts h hc
  have hk : Known S w w := by
    obtain ⟨f, hf, hs⟩ := hroot
    exact ⟨f, hf, by rw [hs]; simp [said]⟩
  subst a3
  have htr := a5 hk
  obtain ⟨N, hN⟩ := full_exact hO a4 a2
  refine ⟨N, fun n hn => ?_⟩
  obtain ⟨r, s2, st2, b1, b2, _, _, b5⟩ := hN n hn
  have hnd : ¬ Dangling S s' s'.root := by
    rintro ⟨u, v, h1, ⟨p, hp⟩, h3, h4⟩
    obtain ⟨m, hm, hv⟩ := (reach_below htr hc hcomp v).1 (.step h1 ⟨p, hp⟩)
    apply h4
    cases hm with
    | root =>
      obtain ⟨f, hf, hs⟩ := hroot
      exact ⟨f, hf, by rw [hs, hv]; simp [said, seen]⟩
    | @step f _ hb hf hfo =>
      obtain ⟨k, hk, hks⟩ := hcomp f m hf hb hfo
      refine ⟨k, hk, ?_⟩
      rw [hv, said_seen]
      · exact hks
      · rw [← hks]
        exact hc k hk
  obtain ⟨rfl, c2, c3, c4, c5, c6⟩ := b5 hnd
  obtain ⟨r, d1, d2⟩ := export_exact onto core (s2.g.map enc) false
  have hin : ∀ f, S f → Below S f.s → seenTriple s'.root f ∈ s2.g := by
    intro f hf hb
    have hreach := (reach_below htr hc hcomp (seen s'.root f.s)).2 ⟨f.s, hb, rfl⟩
    exact ((c4 _ hreach _).2 ((htr _ _).2 ⟨f, hf, (said_seen (hc f hf)).symm, rfl⟩)).1
  have hout : ∀ x ∈ s2.g, ∃ f, S f ∧ x = seenTriple s'.root f := by
    intro x hx
    rcases c6 x hx with h1 | ⟨f, hf, _, rfl⟩
    · by_cases e : x.s ∈ s'.reg
      · obtain ⟨f, hf, _, e⟩ := (htr x.s x).1 (by rw [Tr, if_pos e]; exact ⟨h1, rfl⟩)
        exact ⟨f, hf, e⟩
      · obtain ⟨f, hf, _, e⟩ := a4.others x h1 e
        exact ⟨f, hf, e⟩
    · exact ⟨f, hf, rfl⟩
  refine ⟨s', st', s2.g, s2, st2, r, a1, b1, b2, d1, ?_, ?_, ?_⟩
  · intro f hf hb
    exact (d2 _).2 ⟨Or.inl (List.mem_map_of_mem (hin f hf hb)), by simp⟩
  · intro x hx
    rcases ((d2 x).1 hx).1 with h1 | h1
    · obtain ⟨t, ht, rfl⟩ := List.mem_map.1 h1
      obtain ⟨f, hf, rfl⟩ := hout t ht
      exact Or.inr ⟨f, hf, rfl⟩
    · exact Or.inl h1
  · intro hall t
    refine ⟨hout t, ?_⟩
    rintro ⟨f, hf, rfl⟩
    exact hin f hf (hall f hf)

/-- **C86.** The same after any history of sessions on an initially empty database (see `Persist.history_exact`): the export of a new session shows what the specification of
the history says is stored. -/
theorem history_export {E : Env D V} (hO : E.toOnto.WF) (evs : List (Persist.Ev D V)) (h : Persist.AllOk E Persist.specStart evs) {w : Uid} (hw : w ≠ 0)
    {own : List (Tables.Triple D V)} (ho : ∀ x ∈ own, x.s = w ∧ x.o ≠ .cuds 0) (dts : List D) (hc : NoClash (Persist.specRun Persist.specStart evs).S w)
    (hroot : ∃ f, (Persist.specRun Persist.specStart evs).S f ∧ f.s = .root) (hcomp : Complete (Persist.specRun Persist.specStart evs).S)
    (hall : ∀ f, (Persist.specRun Persist.specStart evs).S f → Below (Persist.specRun Persist.specStart evs).S f.s) :
    ∃ N, ∀ n, N ≤ n → ∃ s' st' g s'' st'', Persist.connect E w own dts (Persist.run E Persist.World.start evs).st = (.ok (), s', st') ∧ fullGraph E n s' st' = (.ok g, s'', st'') ∧
      ∀ t, t ∈ g ↔ ∃ f, (Persist.specRun Persist.specStart evs).S f ∧ t = seenTriple w f := by
  obtain ⟨_, h2⟩ := Persist.run_good hO evs (Persist.start_good E) h
  obtain ⟨N, hN⟩ := database_exact hO hw ho dts h2.keeps hc hroot hcomp (fun _ => ⟨rdfType, rdfType, rdfType⟩) [] []
  refine ⟨N, fun n hn => ?_⟩
  obtain ⟨s', st', g, s'', st'', r, a1, a2, _, _, _, _, a7⟩ := hN n hn
  exact ⟨s', st', g, s'', st'', a1, a2, a7 hall⟩

end Osp.Full
