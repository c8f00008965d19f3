import Verif.Sim.Spec
import Verif.Recycle.Witness
import Verif.Show.Order
import Verif.Cuds.Root
/-!
# Theorems about the dummy simulation (C84)
-/
namespace Osp.Sim
open Osp.Cuds Osp.Recycle

variable {T : Terms} {O : Onto} {A : Abs} {w c : Uid} {L : List Part} {n : Int}

/-! ### Places -/

theorem place_none {u : Uid} : place L u = none ↔ u ∉ L.map (·.uid) := by
  induction L with
  | nil => simp [place]
  | cons x L ih =>
    unfold place
    by_cases h : x.uid = u
    · simp [h]
    · rw [if_neg h]
      have h' : ¬ u = x.uid := fun e => h e.symm
      simp [Option.map_eq_none_iff, ih, h']

theorem place_some {u : Uid} {k : Nat} {a : Int} (h : place L u = some (k, a)) : ∃ x, L[k]? = some x ∧ x.uid = u ∧ x.age = a := by
  induction L generalizing k a with
  | nil => simp [place] at h
  | cons x L ih =>
    unfold place at h
    by_cases hx : x.uid = u
    · rw [if_pos hx] at h
      simp only [Option.some.injEq, Prod.mk.injEq] at h
      exact ⟨x, by simp [← h.1], hx, h.2⟩
    · rw [if_neg hx, Option.map_eq_some_iff] at h
      obtain ⟨⟨k', a'⟩, h1, h2⟩ := h
      simp only [Prod.mk.injEq] at h2
      obtain ⟨y, e1, e2, e3⟩ := ih h1
      exact ⟨y, by rw [← h2.1]; simpa using e1, e2, e3.trans h2.2⟩

theorem inj_of_nodup (h : (L.map (·.uid)).Nodup) {x y : Part} (hx : x ∈ L) (hy : y ∈ L) (e : x.uid = y.uid) : x = y := by
  induction L with
  | nil => cases hx
  | cons z L ih =>
    simp only [List.map_cons, List.nodup_cons] at h
    rcases List.mem_cons.1 hx with rfl | hx1 <;> rcases List.mem_cons.1 hy with rfl | hy1
    · rfl
    · exact absurd (List.mem_map.2 ⟨y, hy1, e.symm⟩) h.1
    · exact absurd (show y.uid ∈ L.map (·.uid) from List.mem_map.2 ⟨x, hx1, e⟩) h.1
    · exact ih h.2 hx1 hy1

/-- The index map of the session gives the place. -/
theorem lookup_place {u : Uid} (j : Nat) : ((L.map (·.uid)).zipIdx j).lookup u = (place L u).map (fun r => r.1 + j) := by
  induction L generalizing j with
  | nil => simp [place]
  | cons x L ih =>
    simp only [List.map_cons, List.zipIdx_cons]
    unfold place
    by_cases hx : x.uid = u
    · simp [hx]
    · have : (u == x.uid) = false := by simpa using fun e => hx e.symm
      rw [if_neg hx, List.lookup_cons, this]
      dsimp only
      rw [ih]
      cases place L u with
      | none => rfl
      | some r => simp only [Option.map_some]; congr 1; omega

/-! ### Refreshing -/

theorem refresh_refresh (p : Progress) (Q R : Uid → Prop) :
    (p.refresh T O A L Q).refresh T O A L R = p.refresh T O A L (fun u => Q u ∨ R u) := by
  unfold Progress.refresh
  simp only [Progress.mk.injEq, true_and]
  constructor
  · funext u
    cases place L u with
    | none => simp
    | some r =>
      obtain ⟨k, a⟩ := r
      dsimp only
      rw [Bool.or_assoc]
      congr 1
      rw [Bool.eq_iff_iff]
      simp only [Bool.or_eq_true, decide_eq_true_eq]
      constructor
      · rintro (h | h)
        · exact ⟨.inl h.1, h.2⟩
        · exact ⟨.inr h.1, h.2⟩
      · rintro ⟨h | h, h'⟩
        · exact .inl ⟨h, h'⟩
        · exact .inr ⟨h, h'⟩
  · funext u
    cases place L u with
    | none => rfl
    | some r =>
      obtain ⟨k, a⟩ := r
      dsimp only
      by_cases h1 : R u <;> by_cases h2 : Q u <;> simp [h1, h2]

theorem refresh_congr (p : Progress) {Q R : Uid → Prop} (h : ∀ x ∈ L, Q x.uid ↔ R x.uid) : p.refresh T O A L Q = p.refresh T O A L R := by
  have h' : ∀ u r, place L u = some r → (Q u ↔ R u) := by
    intro u r hr
    obtain ⟨x, e1, e2, _⟩ := place_some (k := r.1) (a := r.2) hr
    rw [← e2]
    exact h x (List.mem_of_getElem? e1)
  unfold Progress.refresh
  simp only [Progress.mk.injEq, true_and]
  constructor
  · funext u
    have hu := h' u
    cases hr : place L u with
    | none => rfl
    | some r =>
      dsimp only
      congr 1
      rw [Bool.eq_iff_iff]
      simp only [decide_eq_true_eq, hu r hr]
  · funext u
    have hu := h' u
    cases hr : place L u with
    | none => rfl
    | some r =>
      dsimp only
      by_cases hq : Q u
      · rw [if_pos hq, if_pos ((hu r hr).1 hq)]
      · rw [if_neg hq, if_neg (fun e => hq ((hu r hr).2 e))]

/-! ### The invariant -/

/-- Invariant (nothing in /repo): the session shows the progress `p`. -/
structure Shows (T : Terms) (O : Onto) (A : Abs) (w c : Uid) (L : List Part) (p : Progress) (m : Sim) : Prop where
  ref : Refines m.s (expected T O A c p)
  co : (expected T O A c p).Coherent O.inv
  root : m.s.root = some w
  i : m.engine.i = p.steps
  persons : m.engine.persons = L.map (fun x => ⟨x.name, x.age + p.steps⟩)
  map : m.map = (L.map (·.uid)).zipIdx
  ran : m.ran = true
  added : m.added = []
  updated : m.updated = []
  deleted : m.deleted = []
  moved : ∀ u, p.moved u = true → u ∈ L.map (·.uid) ∧ p.shown u ≠ none ∧ ¬ Is O A u T.citizen
  known : ∀ u, p.shown u ≠ none → u ∈ L.map (·.uid)

theorem reg_mem {m : Sim} {p : Progress} (h : Shows T O A w c L p m) {u : Uid} (hu : A.cls u ≠ none) : u ∈ m.s.reg := by
  rw [h.ref.reg]
  simp only [expected]
  split
  · simp
  · exact hu

theorem get_city {m : Sim} {p : Progress} (hT : Town T O A w c L n) (h : Shows T O A w c L p m) : get O m.s w [] none (some T.city) = .ok [some c] := by
  obtain ⟨l, e, hn, hm⟩ := get_by_filter (O := O) h.ref h.co w none (some T.city)
  have hwm : p.moved w = false := by
    rw [Bool.eq_false_iff]
    intro hw
    obtain ⟨x, hx, e⟩ := List.mem_map.1 (h.moved w hw).1
    exact hT.w_out x hx e
  have hcm : p.moved c = false := by
    rw [Bool.eq_false_iff]
    intro hw
    obtain ⟨x, hx, e⟩ := List.mem_map.1 (h.moved c hw).1
    exact hT.c_out x hx e
  have hc : c ∈ l := by
    rw [hm]
    obtain ⟨r, hr⟩ := hT.city
    obtain ⟨k, hk1, hk2⟩ := hT.city_is
    refine ⟨r, .inl ⟨hr, hwm, hcm⟩, .inl rfl, by simp, ?_⟩
    intro c' hc'
    cases hc'
    exact ⟨k, by simp [expected, hcm, hk1], hk2⟩
  have hall : ∀ x ∈ l, x = c := by
    intro x hx
    rw [hm] at hx
    obtain ⟨r, hl, _, _, hcl⟩ := hx
    obtain ⟨k, hk1, hk2⟩ := hcl _ rfl
    rcases hl with ⟨hl, _, hx⟩ | ⟨e, _⟩ | ⟨_, _, e⟩
    · refine hT.only_city r x hl ⟨k, ?_, hk2⟩
      simpa [expected, hx] using hk1
    · exact absurd e hT.wc
    · rw [hwm] at e; cases e
  rw [e]
  cases l with
  | nil => cases hc
  | cons a l =>
    have ha := hall a (by simp)
    subst ha
    cases l with
    | nil => rfl
    | cons b l =>
      have hb := hall b (by simp)
      subst hb
      simp at hn

theorem moveToCity_root {s : Sess} {p : Uid} {k : Cls} {vals : List (Attr × Val)} {hp hi : Rel} {s' : Sess}
    (h : changeOclass O s p k (.ok vals) = ⟨.ok (), s'⟩) (hr : s'.root = s.root) : (moveToCity O s w p c k vals hp hi).st.root = s.root := by
  unfold moveToCity
  rw [h]
  dsimp only
  have := remove_root (O := O) (s := s') w [p] (some hp) none
  split
  · rename_i s2 h2; rw [h2] at this; exact this.trans hr
  · rename_i s2 h2; rw [h2] at this; rw [add_root]; exact this.trans hr

/-- Loading the age only. -/
theorem expected_age {p : Progress} {u : Uid} {k : Nat} {a : Int} (hp : place L u = some (k, a)) (hno : ¬ (¬ Is O A u T.citizen ∧ (k : Int) < p.steps)) :
    (expected T O A c p).setAttr u T.age (T.ofNum (a + p.steps)) = expected T O A c (p.refresh T O A L (· = u)) := by
  have hm : (p.refresh T O A L (· = u)).moved = p.moved := by
    funext v
    simp only [Progress.refresh]
    cases hv : place L v with
    | none => simp
    | some r =>
      obtain ⟨k', a'⟩ := r
      dsimp only
      rw [Bool.or_eq_left_iff_imp]
      intro hd
      simp only [decide_eq_true_eq] at hd
      obtain ⟨rfl, h2, h3⟩ := hd
      rw [hp] at hv
      simp only [Option.some.injEq, Prod.mk.injEq] at hv
      exact absurd ⟨h2, hv.1 ▸ h3⟩ hno
  unfold Abs.setAttr expected
  simp only [hm, Abs.mk.injEq, true_and, and_true]
  funext v b
  by_cases hb : b = T.age
  · subst hb
    simp only [and_true, if_true]
    by_cases hv : v = u
    · subst hv
      simp [Progress.refresh, hp]
    · rw [if_neg hv]
      have : (p.refresh T O A L (· = u)).shown v = p.shown v := by
        simp only [Progress.refresh]
        cases place L v with
        | none => rfl
        | some r => simp [hv]
      rw [this]
  · simp [hb]

/-- Loading a person who has moved. -/
theorem expected_move {p : Progress} (hT : Town T O A w c L n) {x : Part} (hx : x ∈ L) {k : Nat} {a : Int} (hp : place L x.uid = some (k, a))
    (hci : ¬ Is O A x.uid T.citizen) (hk : (k : Int) < p.steps) :
    (renew ((expected T O A c p).setAttr x.uid T.age (T.ofNum (a + p.steps))) x.uid T.citizen [(T.name, x.name), (T.age, T.ofNum (a + p.steps))]).connect
      O.inv c T.hasInhabitant [x.uid] = expected T O A c (p.refresh T O A L (· = x.uid)) := by
  have hm : ∀ v, (p.refresh T O A L (· = x.uid)).moved v = (p.moved v || decide (v = x.uid)) := by
    intro v
    simp only [Progress.refresh]
    congr 1
    by_cases hv : v = x.uid
    · subst hv
      rw [hp]
      simp [hci, hk]
    · cases place L v with
      | none => simp [hv]
      | some r => simp [hv]
  have hs : ∀ v, (p.refresh T O A L (· = x.uid)).shown v = if v = x.uid then some (a + p.steps) else p.shown v := by
    intro v
    simp only [Progress.refresh]
    by_cases hv : v = x.uid
    · subst hv
      rw [hp]
      simp
    · cases place L v with
      | none => simp [hv]
      | some r => simp [hv]
  unfold Abs.connect renew Abs.setAttr expected
  simp only [Abs.mk.injEq, hm, hs]
  refine ⟨?_, ?_, ?_⟩
  · funext v
    by_cases hv : v = x.uid <;> simp [hv]
  · funext v b
    by_cases hv : v = x.uid
    · subst hv
      simp only [if_true, decide_true, Bool.or_true, true_and]
      by_cases hb : b = T.age
      · subst hb
        have : (T.age == T.name) = false := by simpa using fun e => hT.names e.symm
        simp [List.lookup_cons, this]
      · by_cases hb' : b = T.name
        · subst hb'
          simp [hb, (hT.has_name x hx).1]
        · have h1 : (b == T.name) = false := by simpa using hb'
          have h2 : (b == T.age) = false := by simpa using hb
          simp [List.lookup_cons, h1, h2, hb, hb']
    · simp [hv]
  · funext y q z
    rw [eq_iff_iff]
    simp only [List.mem_singleton, Bool.or_eq_false_iff, decide_eq_false_iff_not, Bool.or_eq_true, decide_eq_true_eq]
    have hc := hT.c_out x hx
    constructor
    · rintro (⟨h | h | h, h1, h2⟩ | h | h)
      · exact .inl ⟨h.1, ⟨h.2.1, h1⟩, h.2.2, h2⟩
      · exact .inr (.inl ⟨h.1, h.2.1, .inl h.2.2⟩)
      · exact .inr (.inr ⟨h.1, h.2.1, .inl h.2.2⟩)
      · exact .inr (.inl ⟨h.1, h.2.1, .inr h.2.2⟩)
      · exact .inr (.inr ⟨h.1, h.2.1, .inr h.2.2⟩)
    · rintro (⟨h, h1, h2⟩ | ⟨h, h1, h2⟩ | ⟨h, h1, h2⟩)
      · exact .inl ⟨.inl ⟨h, h1.1, h2.1⟩, h1.2, h2.2⟩
      · by_cases hz : z = x.uid
        · exact .inr (.inl ⟨h, h1, hz⟩)
        · exact .inl ⟨.inr (.inl ⟨h, h1, h2.resolve_right hz⟩), by rw [h]; exact fun e => hc e.symm, hz⟩
      · by_cases hz : y = x.uid
        · exact .inr (.inr ⟨h, h1, hz⟩)
        · exact .inl ⟨.inr (.inr ⟨h, h1, h2.resolve_right hz⟩), hz, by rw [h]; exact fun e => hc e.symm⟩

theorem shows_refresh_moved {p : Progress} {m : Sim} (h : Shows T O A w c L p m) (Q : Uid → Prop) :
    (∀ u, (p.refresh T O A L Q).moved u = true → u ∈ L.map (·.uid) ∧ (p.refresh T O A L Q).shown u ≠ none ∧ ¬ Is O A u T.citizen) ∧
    (∀ u, (p.refresh T O A L Q).shown u ≠ none → u ∈ L.map (·.uid)) := by
  have hin : ∀ u r, place L u = some r → u ∈ L.map (·.uid) := by
    intro u r hr
    by_contra hu
    rw [place_none.2 hu] at hr
    cases hr
  constructor
  · intro u hu
    simp only [Progress.refresh, Bool.or_eq_true] at hu ⊢
    cases hr : place L u with
    | none =>
      rw [hr] at hu
      simp only [Bool.false_eq_true, or_false] at hu
      exact h.moved u hu
    | some r =>
      rw [hr] at hu
      simp only [decide_eq_true_eq] at hu
      refine ⟨hin u r hr, ?_, ?_⟩
      · dsimp only
        split
        · simp
        · rename_i hq
          rcases hu with hu | hu
          · exact (h.moved u hu).2.1
          · exact absurd hu.1 hq
      · rcases hu with hu | hu
        · exact (h.moved u hu).2.2
        · exact hu.2.1
  · intro u hu
    simp only [Progress.refresh] at hu
    cases hr : place L u with
    | none => rw [hr] at hu; exact h.known u hu
    | some r => exact hin u r hr

theorem isA_ref {s : Sess} {B : Abs} (h : Refines s B) (u : Uid) (k : Cls) : isA O s u k = true ↔ Is O B u k := by
  unfold isA Is
  rw [oclass_ref h]
  cases B.cls u <;> simp

/-- Loading one person. -/
theorem load_person {p : Progress} {m : Sim} (hT : Town T O A w c L n) (h : Shows T O A w c L p m) {x : Part} (hx : x ∈ L) {k : Nat} {a : Int}
    (hp : place L x.uid = some (k, a)) :
    ∃ m', loadPerson T O w x.uid k m = (.ok (), m') ∧ Shows T O A w c L (p.refresh T O A L (· = x.uid)) m' := by
  obtain ⟨x', hx1, hx2, hx3⟩ := place_some hp
  have hxx : x' = x := by
    have := hT.nodup
    exact inj_of_nodup this (List.mem_of_getElem? hx1) hx hx2
  subst hxx
  obtain ⟨kc, hcls, hper⟩ := hT.person x' hx
  have hreg : x'.uid ∈ m.s.reg := reg_mem h (by rw [hcls]; simp)
  have hget : m.engine.getPerson k = .ok (decide ((k : Int) < p.steps), ⟨x'.name, a + p.steps⟩) := by
    unfold Engine.getPerson
    rw [h.persons, h.i]
    simp [hx1, hx3]
  obtain ⟨hmv, hkn⟩ := shows_refresh_moved h (· = x'.uid)
  -- the class in the present view
  obtain ⟨kc', hcls', hage⟩ : ∃ kc', (expected T O A c p).cls x'.uid = some kc' ∧ T.age ∈ O.attrs kc' := by
    by_cases hmo : p.moved x'.uid
    · exact ⟨T.citizen, by simp [expected, hmo], hT.citizen_age⟩
    · exact ⟨kc, by simp [expected, hmo, hcls], hT.has_age x' hx kc hcls⟩
  obtain ⟨_, _, hset⟩ := setAttr_sim (O := O) h.ref x'.uid T.age (T.ofNum (a + p.steps)) kc' hcls'
  obtain ⟨hok, href⟩ := hset _ hage (hT.numbers _)
  obtain ⟨s1, hs1⟩ : ∃ s1, setAttr O m.s x'.uid T.age (T.ofNum (a + p.steps)) = ⟨.ok (), s1⟩ := ⟨_, by rw [← hok]⟩
  have hroot1 : s1.root = some w := by
    have := setAttr_root (O := O) (s := m.s) x'.uid T.age (T.ofNum (a + p.steps))
    rw [hs1] at this
    exact this.trans h.root
  rw [hs1] at href
  dsimp only at href
  have hco1 : ((expected T O A c p).setAttr x'.uid T.age (T.ofNum (a + p.steps))).Coherent O.inv := ⟨h.co.sym, h.co.src, h.co.dst⟩
  have hcit : isA O s1 x'.uid T.citizen = true ↔ (p.moved x'.uid = true ∨ Is O A x'.uid T.citizen) := by
    rw [isA_ref href]
    unfold Is
    simp only [Abs.setAttr, expected]
    by_cases hmo : p.moved x'.uid
    · simp [hmo, hT.citizen_refl]
    · simp [hmo]
  have hload : loadPerson T O w x'.uid k m = if isA O s1 x'.uid T.citizen = true then (.ok (), { m with s := s1 }) else convert T O w x'.uid k { m with s := s1 } := by
    unfold loadPerson
    rw [if_neg (by simpa using hreg), hget]
    simp only [hs1]
  have keep : ∀ s2 : Sess, Refines s2 (expected T O A c (p.refresh T O A L (· = x'.uid))) → (expected T O A c (p.refresh T O A L (· = x'.uid))).Coherent O.inv →
      s2.root = some w → Shows T O A w c L (p.refresh T O A L (· = x'.uid)) { m with s := s2 } := fun s2 e1 e2 e3 =>
    ⟨e1, e2, e3, h.i, h.persons, h.map, h.ran, h.added, h.updated, h.deleted, hmv, hkn⟩
  rw [hload]
  by_cases hno : ¬ Is O A x'.uid T.citizen ∧ (k : Int) < p.steps
  · by_cases hmo : p.moved x'.uid = true
    · -- already moved
      rw [if_pos (hcit.2 (.inl hmo))]
      refine ⟨_, rfl, ?_⟩
      have he : expected T O A c (p.refresh T O A L (· = x'.uid)) = (expected T O A c p).setAttr x'.uid T.age (T.ofNum (a + p.steps)) := by
        have hm : (p.refresh T O A L (· = x'.uid)).moved = p.moved := by
          funext v
          simp only [Progress.refresh]
          cases hv : place L v with
          | none => simp
          | some r =>
            dsimp only
            rw [Bool.or_eq_left_iff_imp]
            intro hd
            simp only [decide_eq_true_eq] at hd
            rw [hd.1]
            exact hmo
        unfold Abs.setAttr expected
        simp only [hm, Abs.mk.injEq, true_and, and_true]
        funext v b
        by_cases hb : b = T.age
        · subst hb
          simp only [and_true, if_true]
          by_cases hv : v = x'.uid
          · subst hv
            simp [Progress.refresh, hp]
          · rw [if_neg hv]
            have : (p.refresh T O A L (· = x'.uid)).shown v = p.shown v := by
              simp only [Progress.refresh]
              cases place L v with
              | none => rfl
              | some r => simp [hv]
            rw [this]
        · simp [hb]
      exact keep s1 (he ▸ href) (he ▸ hco1) hroot1
    · rw [if_neg (by rw [hcit]; exact fun e => e.elim hmo hno.1)]
      have hcity : get O s1 w [] none (some T.city) = .ok [some c] := by
        have hS : Shows T O A w c L p m := h
        obtain ⟨l, e, hn, hm⟩ := get_by_filter (O := O) href hco1 w none (some T.city)
        obtain ⟨l', e', hn', hm'⟩ := get_by_filter (O := O) h.ref h.co w none (some T.city)
        have e2 := get_city hT h
        rw [e'] at e2
        have hl' : l' = [c] := by
          simp only [Except.ok.injEq] at e2
          cases l' with
          | nil => cases e2
          | cons b l' => simpa using e2
        have hall : ∀ y, y ∈ l ↔ y = c := by
          intro y
          rw [hm]
          have := hm' y
          rw [hl', List.mem_singleton] at this
          rw [this]
          rfl
        rw [e]
        cases l with
        | nil => exact absurd ((hall c).2 rfl) (by simp)
        | cons b l =>
          have hb := (hall b).1 (by simp)
          subst hb
          cases l with
          | nil => rfl
          | cons b' l =>
            have hb' := (hall b').1 (by simp)
            subst hb'
            simp at hn
      have hmo' : p.moved x'.uid = false := by simpa using hmo
      have hreg1 : x'.uid ∈ s1.reg := (href.reg _).2 (by simp only [Abs.setAttr]; rw [hcls']; simp)
      have hregc : c ∈ s1.reg := (href.reg _).2 (by
        obtain ⟨kk, hk1, _⟩ := hT.city_is
        simp only [Abs.setAttr, expected]
        split
        · simp
        · rw [hk1]; simp)
      have honly : ∀ r y, ((expected T O A c p).setAttr x'.uid T.age (T.ofNum (a + p.steps))).link x'.uid r y → y = w ∧ O.subRel (O.inv r) T.hasPart = true := by
        rintro r y (⟨hl, _⟩ | ⟨hl, _⟩ | ⟨_, _, hl⟩)
        · exact hT.only_wrapper x' hx r y hl
        · exact absurd hl (hT.c_out x' hx)
        · rw [hmo'] at hl; cases hl
      have hwm : p.moved w = false := by
        rw [Bool.eq_false_iff]
        intro hw
        obtain ⟨y, hy, e⟩ := List.mem_map.1 (h.moved w hw).1
        exact hT.w_out y hy e
      have hsome : ∃ r, ((expected T O A c p).setAttr x'.uid T.age (T.ofNum (a + p.steps))).link w r x'.uid := by
        obtain ⟨r, hr⟩ := hT.in_wrapper x' hx
        exact ⟨r, .inl ⟨hr, hwm, hmo'⟩⟩
      have hvals : Converted O [(T.name, x'.name), (T.age, T.ofNum (a + p.steps))] [(T.name, x'.name), (T.age, T.ofNum (a + p.steps))] :=
        ⟨rfl, (hT.has_name x' hx).2, rfl, hT.numbers _, trivial⟩
      have hnd : ([(T.name, x'.name), (T.age, T.ofNum (a + p.steps))].map (·.1)).Nodup := by simpa using hT.names
      obtain ⟨s2, k1, k2, k3⟩ := move_to_city hT.wf href hco1 w x'.uid c hreg1 hregc (fun e => hT.w_out x' hx e.symm) (fun e => hT.c_out x' hx e.symm)
        T.citizen _ _ hnd hvals T.hasPart T.hasInhabitant hsome honly
      obtain ⟨s3, j1, _, j3, _⟩ := change_oclass_exact hT.wf href hco1 x'.uid hreg1 T.citizen _ _ hnd hvals
      have hroot2 : s2.root = some w := by
        have := moveToCity_root (w := w) (c := c) (hp := T.hasPart) (hi := T.hasInhabitant) j1 j3
        rw [k1] at this
        exact this.trans hroot1
      have hem := expected_move hT hx hp hno.1 hno.2 (p := p)
      rw [hem] at k2 k3
      refine ⟨{ m with s := s2 }, ?_, keep s2 k2 k3 hroot2⟩
      unfold convert
      rw [show get O ({ m with s := s1 } : Sim).s w [] none (some T.city) = .ok [some c] from hcity]
      rw [show ({ m with s := s1 } : Sim).engine.getPerson k = m.engine.getPerson k from rfl, hget]
      simp only [hno.2, decide_true, if_true, k1]
  · have he := expected_age (c := c) hp hno
    by_cases hci : isA O s1 x'.uid T.citizen = true
    · rw [if_pos hci]
      exact ⟨_, rfl, keep s1 (he ▸ href) (he ▸ hco1) hroot1⟩
    · rw [if_neg hci]
      have hS : Shows T O A w c L (p.refresh T O A L (· = x'.uid)) { m with s := s1 } := keep s1 (he ▸ href) (he ▸ hco1) hroot1
      refine ⟨{ m with s := s1 }, ?_, hS⟩
      have hk : ¬ (k : Int) < p.steps := fun hk => hno ⟨fun hi => hci (hcit.2 (.inr hi)), hk⟩
      unfold convert
      rw [show get O ({ m with s := s1 } : Sim).s w [] none (some T.city) = .ok [some c] from get_city hT hS]
      rw [show ({ m with s := s1 } : Sim).engine.getPerson k = m.engine.getPerson k from rfl, hget]
      simp [hk]

end Osp.Sim
