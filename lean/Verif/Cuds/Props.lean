import Verif.Cuds.Sim
/-!
# Properties of the CUDS API (C16 – C21)
-/
namespace Osp.Cuds

/-! ### The simulation -/

theorem refines_empty : Refines {} Abs.empty := by
  constructor <;> simp [Abs.empty]

theorem coherent_empty (inv : Rel → Rel) : Abs.empty.Coherent inv := by
  constructor <;> simp [Abs.empty]

/-- Every API call returns what the specification says and leaves the session representing the specified view. -/
theorem step_simulates {O : Onto} (hW : O.WF) {s : Sess} {A : Abs} (h : Refines s A) (hco : A.Coherent O.inv) (op : Op) (hop : op.Ok O s) :
    ∃ A', SpecStep O A op (step O s op).res A' ∧ Refines (step O s op).st A' ∧ A'.Coherent O.inv := by
  cases op with
  | create u c vals =>
    obtain ⟨h1, h2, h3⟩ := hop
    by_cases hu : u = 0
    · subst hu
      exact ⟨A, by simpa [step, create] using SpecStep.createZero c vals, by simpa [step, create] using h, hco⟩
    · obtain ⟨k1, k2⟩ := create_sim h u c vals h1 hu h2
      refine ⟨_, ?_, k2, coherent_create hco u c vals⟩
      simp only [step]
      rw [k1]
      exact .create u c vals hu
  | add self args rel d =>
    obtain ⟨h1, h2⟩ := hop
    cases hr : rel.or d with
    | none =>
      have h0 : rel = none ∧ d = none := by simpa using hr
      obtain ⟨rfl, rfl⟩ := h0
      exact ⟨A, .addNoRel self args, h, hco⟩
    | some r =>
      obtain ⟨pre, post, rfl, k1, k2, k3, k4⟩ := addLoop_sim (O := O) self r args s A h
      have hst : (step O s (.add self (pre ++ post) rel d)).st = { s with g := (addLoop O self r (pre ++ post) s.g).2 } := by
        simp [step, add, hr]
      have hres : (step O s (.add self (pre ++ post) rel d)).res = (addLoop O self r (pre ++ post) s.g).1 := by
        simp [step, add, hr]
      rw [hst, hres]
      refine ⟨A.connect O.inv self r pre, ?_, k1, ?_⟩
      · rcases k4 with ⟨k4, rfl⟩ | ⟨k4, x, post', rfl, k5⟩
        · rw [k4, List.append_nil]; exact .add self pre rel d r hr k2 k3
        · rw [k4]; exact .addDup self pre x post' rel d r hr k2 k3 k5
      · exact coherent_connect hW.inv_inv hco self r pre ((h.reg _).1 h1) (fun x hx => (h.reg _).1 (h2 x (by simp [hx])))
  | remove self uids rel oc =>
    by_cases hargs : uids = [] ∨ oc = none
    · obtain ⟨k1, k2, k3⟩ := remove_sim (O := O) h self uids rel oc hargs (fun r x hl => hco.dst _ _ _ hl)
      by_cases hex : ∃ r x, A.link self r x ∧ A.selects O uids rel oc r x
      · refine ⟨_, ?_, k3, coherent_disconnect hW.inv_inv hco _ _⟩
        simp only [step]
        rw [k1 hex]
        exact .remove self uids rel oc hargs hex
      · refine ⟨A, ?_, ?_, hco⟩
        · simp only [step]
          rw [k2 hex]
          exact .removeNone self uids rel oc hargs hex
        · have : A.disconnect O.inv self (A.selects O uids rel oc) = A := by
            unfold Abs.disconnect
            congr 1
            funext a q b
            simp only [eq_iff_iff]
            constructor
            · exact fun h => h.1
            · intro hl
              exact ⟨hl, fun ⟨_, h1, h2⟩ => hex ⟨q, b, h1, h2⟩, fun ⟨_, r, _, h1, h2⟩ => hex ⟨r, a, h1, h2⟩⟩
          rw [this] at k3
          exact k3
    · cases oc with
      | none => exact absurd (Or.inr rfl) hargs
      | some c =>
        have hu : uids ≠ [] := fun e => hargs (Or.inl e)
        have : step O s (.remove self uids rel (some c)) = ⟨.error .typeError, s⟩ := by
          simp [step, remove, getRaw, hu]
        rw [this]
        exact ⟨A, .removeBad self uids rel c hu, h, hco⟩
  | setAttr u a v =>
    have hu := (h.reg u).1 hop
    cases hc : A.cls u with
    | none => exact absurd hc hu
    | some c =>
      obtain ⟨k1, k2, k3⟩ := setAttr_sim (O := O) h u a v c hc
      by_cases ha : a ∈ O.attrs c
      · cases hv : O.conv a v with
        | none =>
          simp only [step]; rw [k2 ha hv]; exact ⟨A, .setAttrConv u a v c hc ha hv, h, hco⟩
        | some v' =>
          obtain ⟨k4, k5⟩ := k3 v' ha hv
          refine ⟨_, ?_, k5, ⟨hco.sym, hco.src, hco.dst⟩⟩
          simp only [step]; rw [k4]; exact .setAttr u a v c v' hc ha hv
      · simp only [step]; rw [k1 ha]; exact ⟨A, .setAttrBad u a v c hc ha, h, hco⟩
  | delete u =>
    obtain ⟨k1, k2⟩ := delete_sim hW h hco u
    refine ⟨_, ?_, k2, coherent_delete hco u⟩
    simp only [step]; rw [k1]; exact .delete u

/-- **Main theorem.** Every history of API calls behaves as the specification: same results, and the final session represents the specified
view, in which all links are symmetric and between existing objects. -/
theorem history_simulates {O : Onto} (hW : O.WF) {s : Sess} {A : Abs} (h : Refines s A) (hco : A.Coherent O.inv) (ops : List Op)
    (hops : AllOk O s ops) :
    ∃ A', SpecRun O A ops (run O s ops).1 A' ∧ Refines (run O s ops).2 A' ∧ A'.Coherent O.inv := by
  induction ops generalizing s A with
  | nil => exact ⟨A, .nil A, h, hco⟩
  | cons op ops ih =>
    obtain ⟨A1, k1, k2, k3⟩ := step_simulates hW h hco op hops.1
    obtain ⟨A2, k4, k5, k6⟩ := ih k2 k3 hops.2
    exact ⟨A2, .cons k1 k4, k5, k6⟩

/-- Every reachable session represents a coherent view. -/
theorem reachable_view {O : Onto} (hW : O.WF) {s : Sess} (hs : Reachable O s) : ∃ A, Refines s A ∧ A.Coherent O.inv := by
  induction hs with
  | init => exact ⟨_, refines_empty, coherent_empty _⟩
  | step _ op hop ih =>
    obtain ⟨A, h1, h2⟩ := ih
    obtain ⟨A', _, h3, h4⟩ := step_simulates hW h1 h2 op hop
    exact ⟨A', h3, h4⟩

/-! ### C16 Relationships are symmetric with their inverses -/

/-- In every reachable session, `a` is linked to `b` by `r` exactly if `b` is linked to `a` by the inverse of `r`, and links only connect objects
of the session. -/
theorem links_symmetric {O : Onto} (hW : O.WF) {s : Sess} (hs : Reachable O s) (a b : Uid) (r : Rel) :
    ((⟨a, .rel r, .cuds b⟩ : Triple) ∈ s.g ↔ (⟨b, .rel (O.inv r), .cuds a⟩ : Triple) ∈ s.g) ∧
    ((⟨a, .rel r, .cuds b⟩ : Triple) ∈ s.g → a ∈ s.reg ∧ b ∈ s.reg) := by
  obtain ⟨A, h, hco⟩ := reachable_view hW hs
  simp only [h.link, h.reg]
  refine ⟨⟨hco.sym a r b, fun hl => ?_⟩, fun hl => ⟨hco.src _ _ _ hl, hco.dst _ _ _ hl⟩⟩
  have := hco.sym _ _ _ hl
  rwa [hW.inv_inv] at this

/-! ### C19 get answers are exact -/

/-- `get` without uids returns every matching neighbour exactly once, and nothing else. -/
theorem get_by_filter {O : Onto} {s : Sess} {A : Abs} (h : Refines s A) (hco : A.Coherent O.inv) (self : Uid) (rel : Option Rel) (oc : Option Cls) :
    ∃ l : List Uid, get O s self [] rel oc = .ok (l.map some) ∧ l.Nodup ∧
      ∀ x, x ∈ l ↔ ∃ r, A.link self r x ∧ A.selects O [] rel oc r x := by
  obtain ⟨us, m, he, hn, hne, hm, hus, _⟩ := getRaw_spec (O := O) h self [] rel oc (Or.inl rfl)
  refine ⟨m.map (·.1), ?_, hn, ?_⟩
  · unfold get
    rw [he]
    simp only [bind, Except.bind]
    rw [loadCudsObjects_eq, hus rfl, List.map_map]
    congr 1
    apply List.map_congr_left
    intro x hx
    obtain ⟨r, hr⟩ := (Mapping.mem_keys_iff hne).1 hx
    have := (h.reg x).2 (hco.dst _ _ _ ((hm x r).1 hr).1)
    simp [this]
  · intro x
    rw [Mapping.mem_keys_iff hne]
    simp only [hm]

/-- `get` with uids answers position by position: the object itself if it is a matching neighbour, `None` otherwise. -/
theorem get_by_uids {O : Onto} {s : Sess} {A : Abs} (h : Refines s A) (hco : A.Coherent O.inv) (self : Uid) (uids : List Uid) (hu : uids ≠ [])
    (rel : Option Rel) :
    ∃ l, get O s self uids rel none = .ok l ∧
      List.Forall₂ (fun u o => (o = some u ∧ ∃ r, A.link self r u ∧ A.selects O uids rel none r u) ∨
        (o = none ∧ ¬ ∃ r, A.link self r u ∧ A.selects O uids rel none r u)) uids l := by
  obtain ⟨us, m, he, hn, hne, hm, _, hf⟩ := getRaw_spec (O := O) h self uids rel none (Or.inr rfl)
  refine ⟨us.map (fun o => o.bind fun u => if u ∈ s.reg then some u else none), ?_, ?_⟩
  · unfold get
    rw [he]
    simp only [bind, Except.bind]
    rw [loadCudsObjects_eq]
  · rw [List.forall₂_map_right_iff]
    refine List.Forall₂.imp ?_ (hf hu)
    simp only [hm]
    rintro u o (⟨rfl, r, hl, hsel⟩ | ⟨rfl, hno⟩)
    · have := (h.reg u).2 (hco.dst _ _ _ hl)
      exact Or.inl ⟨by simp [this], r, hl, hsel⟩
    · exact Or.inr ⟨rfl, hno⟩

/-- uids and a class filter together are refused. -/
theorem get_uids_and_oclass {O : Onto} (s : Sess) (self : Uid) (uids : List Uid) (hu : uids ≠ []) (rel : Option Rel) (c : Cls) :
    get O s self uids rel (some c) = .error .typeError := by
  simp [get, getRaw, hu, bind, Except.bind]

theorem cat_ok (f : Option Uid → Except PyErr (List (Uid × Rel))) (us : List (Option Uid))
    (hok : ∀ o ∈ us, ∃ l, f o = .ok l) :
    ∃ L, getWithRel.cat (us.map f) = .ok L ∧ ∀ p, p ∈ L ↔ ∃ o ∈ us, ∃ l, f o = .ok l ∧ p ∈ l := by
  induction us with
  | nil => exact ⟨[], rfl, by simp⟩
  | cons o us ih =>
    obtain ⟨l, hl⟩ := hok o (by simp)
    obtain ⟨L, h1, h2⟩ := ih (fun o' ho' => hok o' (by simp [ho']))
    refine ⟨l ++ L, ?_, ?_⟩
    · simp [getWithRel.cat, hl, h1]
    · intro p
      rw [List.mem_append, h2]
      constructor
      · rintro (h | ⟨o', ho', l', hl', hp⟩)
        · exact ⟨o, by simp, l, hl, h⟩
        · exact ⟨o', by simp [ho'], l', hl', hp⟩
      · rintro ⟨o', ho', l', hl', hp⟩
        rcases List.mem_cons.1 ho' with rfl | ho'
        · rw [hl] at hl'; cases hl'; exact Or.inl hp
        · exact Or.inr ⟨o', ho', l', hl', hp⟩

/-- `get(return_rel=True)` without uids returns exactly the matching (neighbour, relationship) pairs. -/
theorem get_with_rel {O : Onto} {s : Sess} {A : Abs} (h : Refines s A) (hco : A.Coherent O.inv) (self : Uid) (rel : Option Rel) (oc : Option Cls) :
    ∃ l, getWithRel O s self [] rel oc = .ok l ∧ ∀ x r, (x, r) ∈ l ↔ A.link self r x ∧ A.selects O [] rel oc r x := by
  obtain ⟨us, m, he, hn, hne, hm, hus, _⟩ := getRaw_spec (O := O) h self [] rel oc (Or.inl rfl)
  have hfind : ∀ (x : Uid) (rs : List Rel), (x, rs) ∈ m → m.find? (fun e => e.1 = x) = some (x, rs) := by
    intro x rs hmem
    clear he hne hm hus
    rename_i hx0; clear hx0
    induction m with
    | nil => cases hmem
    | cons e m ih =>
      simp only [List.map_cons, List.nodup_cons] at hn
      rw [List.find?_cons]
      rcases List.mem_cons.1 hmem with rfl | hmem'
      · simp
      · have : e.1 ≠ x := by rintro rfl; exact hn.1 (List.mem_map.2 ⟨_, hmem', rfl⟩)
        simp only [this, decide_false]
        exact ih hn.2 hmem'
  unfold getWithRel
  rw [he]
  simp only [bind, Except.bind]
  rw [loadCudsObjects_eq, hus rfl]
  have hload : ((m.map (·.1)).map some).map (fun o => o.bind fun u => if u ∈ s.reg then some u else none) = (m.map (·.1)).map some := by
    rw [List.map_map]
    apply List.map_congr_left
    intro x hx
    obtain ⟨r, hr⟩ := (Mapping.mem_keys_iff hne).1 hx
    have := (h.reg x).2 (hco.dst _ _ _ ((hm x r).1 hr).1)
    simp [this]
  rw [hload]
  obtain ⟨L, h1, h2⟩ := cat_ok (relPairs m) ((m.map (·.1)).map some) (by
    intro o ho
    simp only [List.map_map, List.mem_map, Function.comp] at ho
    obtain ⟨⟨x, rs⟩, hmem, rfl⟩ := ho
    simp only [relPairs, hfind x rs hmem]
    exact ⟨_, rfl⟩)
  refine ⟨L, h1, ?_⟩
  intro x r
  rw [h2, ← hm]
  constructor
  · rintro ⟨o, ho, l, hl, hp⟩
    simp only [List.map_map, List.mem_map, Function.comp] at ho
    obtain ⟨⟨y, rs⟩, hmem, rfl⟩ := ho
    simp only [relPairs, hfind y rs hmem] at hl
    cases hl
    simp only [List.mem_map, Prod.mk.injEq] at hp
    obtain ⟨r', hr', rfl, rfl⟩ := hp
    exact ⟨rs, hmem, hr'⟩
  · rintro ⟨rs, hmem, hr⟩
    refine ⟨some x, ?_, rs.map (fun r => (x, r)), ?_, ?_⟩
    · simp only [List.map_map, List.mem_map, Function.comp]; exact ⟨_, hmem, rfl⟩
    · simp only [relPairs, hfind x rs hmem]
    · simp [hr]

/-! ### C20 Attributes are single valued, last write wins -/

/-- Reading an attribute returns the value of the view. -/
theorem getAttr_view {O : Onto} {s : Sess} {A : Abs} (h : Refines s A) (u : Uid) (a : Attr) (c : Cls) (v : Val)
    (hc : A.cls u = some c) (ha : a ∈ O.attrs c) (hv : A.attr u a = some v) : getAttr O s u a = .ok v := by
  rw [getAttr_ref h u a c hc, if_pos ha, hv]

/-- After a successful assignment, in any reachable session, the attribute reads as the converted value, it is stored once, and nothing else of any
object changes. -/
theorem setAttr_last_write_wins {O : Onto} (hW : O.WF) {s : Sess} (hs : Reachable O s) (u : Uid) (a : Attr) (v v' : Val) (hu : u ∈ s.reg)
    (hv : O.conv a v = some v') (hok : (setAttr O s u a v).res = .ok ()) :
    getAttr O (setAttr O s u a v).st u a = .ok v' ∧
    (∀ w, (⟨u, .attr a, .val w⟩ : Triple) ∈ (setAttr O s u a v).st.g ↔ w = v') ∧
    (∀ u' a', (u', a') ≠ (u, a) → getAttr O (setAttr O s u a v).st u' a' = getAttr O s u' a') ∧
    (∀ t : Triple, ¬ (t.s = u ∧ t.p = .attr a) → (t ∈ (setAttr O s u a v).st.g ↔ t ∈ s.g)) := by
  obtain ⟨A, h, hco⟩ := reachable_view hW hs
  cases hc : A.cls u with
  | none => exact absurd hc ((h.reg u).1 hu)
  | some c =>
    obtain ⟨k1, k2, k3⟩ := setAttr_sim (O := O) h u a v c hc
    by_cases ha : a ∈ O.attrs c
    · obtain ⟨_, k5⟩ := k3 v' ha hv
      refine ⟨?_, ?_, ?_, ?_⟩
      · rw [getAttr_ref k5 u a c hc, if_pos ha]
        simp [Abs.setAttr]
      · intro w; rw [k5.attr]; simp [Abs.setAttr, eq_comm]
      · intro u' a' hne
        have e2 : (A.setAttr u a v').attr u' a' = A.attr u' a' := by
          simp only [Abs.setAttr]
          rw [if_neg]
          rintro ⟨rfl, rfl⟩; exact hne rfl
        cases hc' : A.cls u' with
        | none =>
          unfold getAttr
          rw [oclass_ref k5, oclass_ref h]
          simp [Abs.setAttr, hc']
        | some c' =>
          rw [getAttr_ref k5 u' a' c' hc', getAttr_ref h u' a' c' hc', e2]
      · intro t ht
        have : (setAttr O s u a v).st.g = s.g.set ⟨u, .attr a, .val v'⟩ := by
          unfold setAttr
          rw [oclass_ref h, hc]
          simp [ha, hv]
        rw [this, mem_gset]
        constructor
        · rintro (rfl | h1)
          · exact absurd ⟨rfl, rfl⟩ ht
          · exact h1.1
        · intro h1; exact Or.inr ⟨h1, ht⟩
    · rw [k1 ha] at hok; cases hok

/-- In every reachable session each attribute of each object has at most one stored value. -/
theorem attributes_single_valued {O : Onto} (hW : O.WF) {s : Sess} (hs : Reachable O s) (u : Uid) (a : Attr) (v w : Val)
    (hv : (⟨u, .attr a, .val v⟩ : Triple) ∈ s.g) (hw : (⟨u, .attr a, .val w⟩ : Triple) ∈ s.g) : v = w := by
  obtain ⟨A, h, _⟩ := reachable_view hW hs
  rw [h.attr] at hv hw
  exact Option.some.inj (hv.symm.trans hw)

/-! ### C17, C18, C21 stated on the session -/

/-- C17: `add` in any reachable session. It either connects exactly the given objects (both directions) and nothing else changes, or raises
ValueError after connecting exactly the arguments before the offending one. -/
theorem add_exact {O : Onto} (hW : O.WF) {s : Sess} (hs : Reachable O s) (self : Uid) (args : List Uid) (rel d : Option Rel) (r : Rel)
    (hr : rel.or d = some r) :
    ∃ pre post, args = pre ++ post ∧
      (∀ t, t ∈ (add O s self args rel d).st.g ↔
        t ∈ s.g ∨ ∃ x ∈ pre, t = ⟨self, .rel r, .cuds x⟩ ∨ t = ⟨x, .rel (O.inv r), .cuds self⟩) ∧
      (add O s self args rel d).st.reg = s.reg ∧
      ((add O s self args rel d).res = .ok () ∧ post = [] ∨
       (add O s self args rel d).res = .error .valueError ∧
         ∃ x post', post = x :: post' ∧ ((⟨self, .rel r, .cuds x⟩ : Triple) ∈ s.g ∨ x ∈ pre)) ∧
      ((add O s self args rel d).res = .ok () ↔ args.Nodup ∧ ∀ x ∈ args, (⟨self, .rel r, .cuds x⟩ : Triple) ∉ s.g) := by
  obtain ⟨A, h, hco⟩ := reachable_view hW hs
  obtain ⟨pre, post, rfl, k1, k2, k3, k4⟩ := addLoop_sim (O := O) self r args s A h
  have hst : (add O s self (pre ++ post) rel d).st = { s with g := (addLoop O self r (pre ++ post) s.g).2 } := by
    simp [add, hr]
  have hres : (add O s self (pre ++ post) rel d).res = (addLoop O self r (pre ++ post) s.g).1 := by
    simp [add, hr]
  rw [hst, hres]
  refine ⟨pre, post, rfl, ?_, rfl, ?_, ?_⟩
  · intro t
    constructor
    · intro ht
      rcases k1.kinds t ht with ⟨c, hp, ho⟩ | ⟨a, v, hp, ho⟩ | ⟨q, x, hp, ho⟩
      · obtain ⟨ts, tp, t3⟩ := t
        simp only at hp ho
        subst hp ho
        exact Or.inl ((h.type _ _).2 ((k1.type _ _).1 ht))
      · obtain ⟨ts, tp, t3⟩ := t
        simp only at hp ho
        subst hp ho
        exact Or.inl ((h.attr _ _ _).2 ((k1.attr _ _ _).1 ht))
      · obtain ⟨ts, tp, t3⟩ := t
        simp only at hp ho
        subst hp ho
        rcases (k1.link _ _ _).1 ht with hl | ⟨rfl, rfl, hx⟩ | ⟨rfl, rfl, hx⟩
        · exact Or.inl ((h.link _ _ _).2 hl)
        · exact Or.inr ⟨_, hx, Or.inl rfl⟩
        · exact Or.inr ⟨_, hx, Or.inr rfl⟩
    · rintro (ht | ⟨x, hx, rfl | rfl⟩)
      · rcases h.kinds t ht with ⟨c, hp, ho⟩ | ⟨a, v, hp, ho⟩ | ⟨q, x, hp, ho⟩ <;> obtain ⟨ts, tp, t3⟩ := t <;> simp only at hp ho <;>
          subst hp ho
        · exact (k1.type _ _).2 ((h.type _ _).1 ht)
        · exact (k1.attr _ _ _).2 ((h.attr _ _ _).1 ht)
        · exact (k1.link _ _ _).2 (Or.inl ((h.link _ _ _).1 ht))
      · exact (k1.link _ _ _).2 (Or.inr (Or.inl ⟨rfl, rfl, hx⟩))
      · exact (k1.link _ _ _).2 (Or.inr (Or.inr ⟨rfl, rfl, hx⟩))
  · simpa only [h.link] using k4
  · simp only [h.link]
    rcases k4 with ⟨k4, rfl⟩ | ⟨k4, x, post', rfl, k5⟩
    · rw [List.append_nil] at k4 ⊢; rw [k4]; exact ⟨fun _ => ⟨k2, k3⟩, fun _ => rfl⟩
    · rw [k4]
      refine ⟨fun hh => (by cases hh), ?_⟩
      rintro ⟨hn, hl⟩
      rcases k5 with k5 | k5
      · exact absurd k5 (hl x (by simp))
      · rw [List.nodup_append] at hn
        exact absurd rfl (hn.2.2 x k5 x (by simp))

/-- C18: `remove` in any reachable session removes, in both directions, exactly the links the filter selects; nothing else changes; it raises
RuntimeError (and changes nothing) exactly if no link is selected. -/
theorem remove_exact {O : Onto} (hW : O.WF) {s : Sess} (hs : Reachable O s) (self : Uid) (uids : List Uid) (rel : Option Rel) (oc : Option Cls)
    (hargs : uids = [] ∨ oc = none) :
    let sel : Rel → Uid → Prop := fun r x => (⟨self, .rel r, .cuds x⟩ : Triple) ∈ s.g ∧ (uids = [] ∨ x ∈ uids) ∧
      (∀ r', rel = some r' → O.subRel r r' = true) ∧
      (∀ c, oc = some c → ∃ c', (⟨x, .type, .cls c'⟩ : Triple) ∈ s.g ∧ O.subCls c' c = true)
    (∀ t, t ∈ (remove O s self uids rel oc).st.g ↔
      t ∈ s.g ∧ ¬ ∃ r x, sel r x ∧ (t = ⟨self, .rel r, .cuds x⟩ ∨ t = ⟨x, .rel (O.inv r), .cuds self⟩)) ∧
    (remove O s self uids rel oc).st.reg = s.reg ∧
    ((∃ r x, sel r x) → (remove O s self uids rel oc).res = .ok ()) ∧
    ((¬ ∃ r x, sel r x) → (remove O s self uids rel oc).res = .error .runtimeError) := by
  intro sel
  obtain ⟨A, h, hco⟩ := reachable_view hW hs
  obtain ⟨k1, k2, k3⟩ := remove_sim (O := O) h self uids rel oc hargs (fun r x hl => hco.dst _ _ _ hl)
  have hsel : ∀ r x, sel r x ↔ A.link self r x ∧ A.selects O uids rel oc r x := by
    intro r x
    simp only [sel, h.link, h.type, Abs.selects]
  refine ⟨?_, ?_, ?_, ?_⟩
  · intro t
    constructor
    · intro ht
      rcases k3.kinds t ht with ⟨c, hp, ho⟩ | ⟨a, v, hp, ho⟩ | ⟨q, x, hp, ho⟩ <;> obtain ⟨ts, tp, t3⟩ := t <;> simp only at hp ho <;>
        subst hp ho
      · exact ⟨(h.type _ _).2 ((k3.type _ _).1 ht), by rintro ⟨r, x, _, h1 | h1⟩ <;> cases h1⟩
      · exact ⟨(h.attr _ _ _).2 ((k3.attr _ _ _).1 ht), by rintro ⟨r, x, _, h1 | h1⟩ <;> cases h1⟩
      · obtain ⟨h1, h2, h3⟩ := (k3.link _ _ _).1 ht
        refine ⟨(h.link _ _ _).2 h1, ?_⟩
        rintro ⟨r, y, hs', h4 | h4⟩
        · cases h4
          exact h2 ⟨rfl, (hsel _ _).1 hs'⟩
        · cases h4
          exact h3 ⟨rfl, r, rfl, (hsel _ _).1 hs'⟩
    · rintro ⟨ht, hno⟩
      rcases h.kinds t ht with ⟨c, hp, ho⟩ | ⟨a, v, hp, ho⟩ | ⟨q, x, hp, ho⟩ <;> obtain ⟨ts, tp, t3⟩ := t <;> simp only at hp ho <;>
        subst hp ho
      · exact (k3.type _ _).2 ((h.type _ _).1 ht)
      · exact (k3.attr _ _ _).2 ((h.attr _ _ _).1 ht)
      · refine (k3.link _ _ _).2 ⟨(h.link _ _ _).1 ht, ?_, ?_⟩
        · rintro ⟨rfl, hh⟩; exact hno ⟨q, x, (hsel _ _).2 hh, Or.inl rfl⟩
        · rintro ⟨rfl, r, rfl, hh⟩; exact hno ⟨r, ts, (hsel _ _).2 hh, Or.inr rfl⟩
  · unfold remove
    split
    · rfl
    · split <;> rfl
  · rintro ⟨r, x, hh⟩; exact k1 ⟨r, x, (hsel _ _).1 hh⟩
  · intro hno; exact k2 (fun ⟨r, x, hh⟩ => hno ⟨r, x, (hsel _ _).2 hh⟩)

/-- C21: deleting an object removes exactly the triples that mention it; it is no longer registered; all other objects are untouched. -/
theorem delete_exact {O : Onto} (hW : O.WF) {s : Sess} (hs : Reachable O s) (u : Uid) :
    (delete O s u).res = .ok () ∧
    (∀ t, t ∈ (delete O s u).st.g ↔ t ∈ s.g ∧ t.s ≠ u ∧ t.o ≠ .cuds u) ∧
    (∀ v, v ∈ (delete O s u).st.reg ↔ v ∈ s.reg ∧ v ≠ u) := by
  obtain ⟨A, h, hco⟩ := reachable_view hW hs
  obtain ⟨k1, k3⟩ := delete_sim hW h hco u
  refine ⟨k1, ?_, ?_⟩
  · intro t
    constructor
    · intro ht
      rcases k3.kinds t ht with ⟨c, hp, ho⟩ | ⟨a, v, hp, ho⟩ | ⟨q, x, hp, ho⟩ <;> obtain ⟨ts, tp, t3⟩ := t <;> simp only at hp ho <;>
        subst hp ho
      · have := (k3.type _ _).1 ht
        simp only [Abs.delete] at this
        split at this
        · cases this
        · rename_i hne; exact ⟨(h.type _ _).2 this, hne, by simp⟩
      · have := (k3.attr _ _ _).1 ht
        simp only [Abs.delete] at this
        split at this
        · cases this
        · rename_i hne; exact ⟨(h.attr _ _ _).2 this, hne, by simp⟩
      · obtain ⟨h1, h2, h3⟩ := (k3.link _ _ _).1 ht
        exact ⟨(h.link _ _ _).2 h1, h2, by simpa using h3⟩
    · rintro ⟨ht, hs', ho'⟩
      rcases h.kinds t ht with ⟨c, hp, ho⟩ | ⟨a, v, hp, ho⟩ | ⟨q, x, hp, ho⟩ <;> obtain ⟨ts, tp, t3⟩ := t <;> simp only at hp ho hs' ho' <;>
        subst hp ho
      · exact (k3.type _ _).2 (by simp only [Abs.delete, hs', ↓reduceIte]; exact (h.type _ _).1 ht)
      · exact (k3.attr _ _ _).2 (by simp only [Abs.delete, hs', ↓reduceIte]; exact (h.attr _ _ _).1 ht)
      · exact (k3.link _ _ _).2 ⟨(h.link _ _ _).1 ht, hs', by simpa using ho'⟩
  · intro v
    rw [k3.reg, h.reg]
    simp only [Abs.delete]
    split
    · rename_i hv; simp [hv]
    · rename_i hv; simp [hv]

/-! ### Non-vacuity -/

/-- An ontology with `hasPart` (1) and its inverse `isPartOf` (2) below `relationship` (0); one class (5) with attribute 7. -/
def exOnto : Onto where
  inv r := if r = 1 then 2 else if r = 2 then 1 else r
  subRel r r' := r = r' || r' = 0
  subCls c c' := c = c'
  attrs _ := [7]
  conv _ v := if v < 100 then some v else none
  active := 1
  relationship := 0

example : exOnto.WF := by
  constructor
  · intro r
    by_cases h1 : r = 1
    · subst h1; rfl
    · by_cases h2 : r = 2
      · subst h2; rfl
      · simp [exOnto, h1, h2]
  · intro r; simp [exOnto]

/-- A history with successes and failures. -/
def exOps : List Op :=
  [.create 1 5 [(7, 10)], .create 2 5 [(7, 20)], .create 3 5 [(7, 30)], .add 1 [2, 3, 2] (some 1) none, .setAttr 2 7 21, .setAttr 2 7 200,
   .remove 1 [3] none none, .remove 1 [3] none none, .delete 2]

example : AllOk exOnto {} exOps := by
  repeat' constructor
  all_goals decide

example : run exOnto {} exOps = ([.ok (), .ok (), .ok (), .error .valueError, .ok (), .error .valueError, .ok (), .error .runtimeError, .ok ()],
    { g := [⟨1, .attr 7, .val 10⟩, ⟨1, .type, .cls 5⟩, ⟨3, .attr 7, .val 30⟩, ⟨3, .type, .cls 5⟩], reg := [1, 3], root := some 1 }) := by
  decide

/-! ### Where the properties fail in the code as it is -/

/-- Creating an object with a uid that exists already merges it into the old one: the attribute then has two values, and an assignment to it is
needed before reads are meaningful again (`Session._store`, session.py:45-47). This is why `Op.Ok` asks for fresh uids. -/
theorem create_existing_uid_corrupts :
    let s := (run exOnto {} [.create 1 5 [(7, 10)], .create 1 5 [(7, 20)]]).2
    (⟨1, .attr 7, .val 10⟩ : Triple) ∈ s.g ∧ (⟨1, .attr 7, .val 20⟩ : Triple) ∈ s.g ∧ getAttr exOnto s 1 7 = .ok 10 := by
  decide

/-- An ontology with a relationship (3) that is not below `cuba:relationship`, as an OWL ontology may define. -/
def exOntoOwl : Onto := { exOnto with subRel := fun r r' => r = r' || (r' = 0 && r ≠ 3) }

/-- Deleting an object that is linked by a relationship outside `cuba:relationship` leaves a dangling link behind: the hypothesis
`Onto.WF.top` of `delete_exact` and `links_symmetric` is necessary. `remove` then fails half way on such a neighbour with an AttributeError. -/
theorem delete_dangling_without_top :
    let s := (run exOntoOwl {} [.create 1 5 [(7, 10)], .create 2 5 [(7, 20)], .add 1 [2] (some 3) none, .delete 2]).2
    (⟨1, .rel 3, .cuds 2⟩ : Triple) ∈ s.g ∧ 2 ∉ s.reg ∧ (remove exOntoOwl s 1 [] none none).res = .error .attributeError := by
  decide

/-- `get(uid, return_rel=True)` raises AttributeError when the uid is not connected, although `get(uid)` answers `None`. -/
theorem get_uid_return_rel_raises :
    let s := (run exOnto {} [.create 1 5 [(7, 10)], .create 2 5 [(7, 20)]]).2
    get exOnto s 1 [2] none none = .ok [none] ∧ getWithRel exOnto s 1 [2] none none = .error .attributeError := by
  decide

end Osp.Cuds
