import Verif.Files.Model
/-!
# The files of a message (C98): theorems
-/
namespace Osp.Files
open Osp.Wire Osp.Transport

/-! ### specification -/

/-- Specification: `x` is the value itself, or lies in it, at any depth. -/
inductive In : Arg → Arg → Prop where
  | here (a : Arg) : In a a
  | dict {x a : Arg} {l : List Arg} (h : a ∈ l) (hx : In x a) : In x (.dict l)
  | seq {x a : Arg} {l : List Arg} (h : a ∈ l) (hx : In x a) : In x (.seq l)

/-- Specification: nothing in the value is refused. -/
def Clean (a : Arg) : Prop := ¬ In .opaque a

/-! ### finding the file objects -/

mutual
theorem getFileCuds_sound : ∀ (a : Arg), (Clean a → ∃ l, getFileCuds a = .ok l ∧ ∀ u, u ∈ l ↔ In (.cuds u true) a) ∧ (¬ Clean a → getFileCuds a = .error .typeError)
  | .cuds v f => by
    constructor
    · intro _
      refine ⟨_, rfl, fun u => ?_⟩
      cases f
      · simp only [Bool.false_eq_true, if_false, List.not_mem_nil, false_iff]
        intro h; cases h
      · simp only [if_true, List.mem_singleton]
        exact ⟨fun h => h ▸ .here _, fun h => by cases h; rfl⟩
    · intro h; exact absurd (fun h => by cases h) h
  | .plain => by
    constructor
    · intro _
      exact ⟨[], rfl, fun u => ⟨fun h => (nomatch h), fun h => by cases h⟩⟩
    · intro h; exact absurd (fun h => by cases h) h
  | .dict l => by
    have ih := getFileCudsList_sound l
    constructor
    · intro h
      obtain ⟨r, hr, hm⟩ := ih.1 (fun a ha hc => h (.dict ha hc))
      refine ⟨r, hr, fun u => (hm u).trans ⟨fun ⟨a, ha, hx⟩ => .dict ha hx, fun h => ?_⟩⟩
      cases h with
      | dict ha hx => exact ⟨_, ha, hx⟩
    · intro h
      refine ih.2 (fun hall => h (fun hc => ?_))
      cases hc with
      | dict ha hx => exact hall _ ha hx
  | .seq l => by
    have ih := getFileCudsList_sound l
    constructor
    · intro h
      obtain ⟨r, hr, hm⟩ := ih.1 (fun a ha hc => h (.seq ha hc))
      refine ⟨r, hr, fun u => (hm u).trans ⟨fun ⟨a, ha, hx⟩ => .seq ha hx, fun h => ?_⟩⟩
      cases h with
      | seq ha hx => exact ⟨_, ha, hx⟩
    · intro h
      refine ih.2 (fun hall => h (fun hc => ?_))
      cases hc with
      | seq ha hx => exact hall _ ha hx
  | .opaque => ⟨fun h => absurd (.here _) h, fun _ => rfl⟩
theorem getFileCudsList_sound : ∀ (l : List Arg), ((∀ a ∈ l, Clean a) → ∃ r, getFileCudsList l = .ok r ∧ ∀ u, u ∈ r ↔ ∃ a ∈ l, In (.cuds u true) a) ∧
    (¬ (∀ a ∈ l, Clean a) → getFileCudsList l = .error .typeError)
  | [] => ⟨fun _ => ⟨[], rfl, by simp⟩, fun h => absurd (by simp) h⟩
  | a :: l => by
    have h1 := getFileCuds_sound a
    have h2 := getFileCudsList_sound l
    by_cases ha : Clean a
    · obtain ⟨x, hx, mx⟩ := h1.1 ha
      by_cases hl : ∀ b ∈ l, Clean b
      · obtain ⟨y, hy, my⟩ := h2.1 hl
        refine ⟨fun _ => ⟨x ++ y, by simp only [getFileCudsList, hx, hy], fun u => ?_⟩, fun h => absurd ?_ h⟩
        · rw [List.mem_append, mx, my]
          simp
        · intro b hb
          rcases List.mem_cons.1 hb with rfl | hb
          · exact ha
          · exact hl b hb
      · refine ⟨fun h => absurd (fun b hb => h b (List.mem_cons_of_mem _ hb)) hl, fun _ => ?_⟩
        simp only [getFileCudsList, hx, h2.2 hl]
    · refine ⟨fun h => absurd (h a List.mem_cons_self) ha, fun _ => ?_⟩
      simp only [getFileCudsList, h1.2 ha]
end

/-- **C98** (which objects). The file objects found in a value are exactly those that lie in it, at any depth; a value that contains something that cannot be iterated over is a TypeError. -/
theorem fileCuds_exact (a : Arg) : (Clean a → ∃ l, getFileCuds a = .ok l ∧ ∀ u, u ∈ l ↔ In (.cuds u true) a) ∧ (¬ Clean a → getFileCuds a = .error .typeError) := getFileCuds_sound a

theorem list_ok : ∀ {l : List Arg} {rs : List (List Nat)}, List.Forall₂ (fun a r => getFileCuds a = .ok r) l rs → getFileCudsList l = .ok rs.flatten
  | [], _, .nil => rfl
  | _ :: _, _, .cons h t => by simp only [getFileCudsList, h, list_ok t, List.flatten_cons]

/-- **C98** (order). The file objects of a sequence are those of its items, one after the other; of a dictionary those of its values. -/
theorem fileCuds_order {l : List Arg} {rs : List (List Nat)} (h : List.Forall₂ (fun a r => getFileCuds a = .ok r) l rs) :
    getFileCuds (.seq l) = .ok rs.flatten ∧ getFileCuds (.dict l) = .ok rs.flatten := ⟨list_ok h, list_ok h⟩

/-! ### what a message carries -/

/-- Specification: the object is in one of the values. -/
def InSome (u : Nat) (l : List Arg) : Prop := ∃ a ∈ l, In (.cuds u true) a

/-- Specification: the values whose files a message carries: the added, the updated and the items. -/
def carried (buffers : Option Buffers) (items : List (String × Arg)) : List Arg := (match buffers with
  | none => []
  | some b => b.added ++ b.updated) ++ items.map (·.2)

theorem move_none (temp : Option String) (us : List Nat) (w : World) : move temp none us w = (w, us.mapM (fun u => convertPath .posix (w.path u))) := rfl

theorem mapM_exact (f : Nat → Except PyErr String) : ∀ (us : List Nat), (∀ u ∈ us, ∃ p, f u = .ok p) → ∃ ps, us.mapM f = .ok ps ∧ ∀ p, p ∈ ps ↔ ∃ u ∈ us, f u = .ok p
  | [], _ => ⟨[], rfl, by simp⟩
  | u :: us, h => by
    obtain ⟨p, hp⟩ := h u List.mem_cons_self
    obtain ⟨ps, hps, hm⟩ := mapM_exact f us (fun v hv => h v (List.mem_cons_of_mem _ hv))
    refine ⟨p :: ps, by simp [List.mapM_cons, hp, hps, bind, Except.bind, pure, Except.pure], fun q => ?_⟩
    rw [List.mem_cons, hm]
    constructor
    · rintro (rfl | ⟨v, hv, e⟩)
      · exact ⟨u, List.mem_cons_self, hp⟩
      · exact ⟨v, List.mem_cons_of_mem _ hv, e⟩
    · rintro ⟨v, hv, e⟩
      rcases List.mem_cons.1 hv with rfl | hv
      · left; rw [hp] at e; exact (Except.ok.inj e).symm
      · exact Or.inr ⟨v, hv, e⟩

theorem moveEach_none (temp : Option String) (w : World) : ∀ (l : List Arg), (∀ a ∈ l, Clean a) → (∀ u, InSome u l → ∃ p, convertPath .posix (w.path u) = .ok p) →
    ∃ ps, moveEach temp none l w = (w, .ok ps) ∧ ∀ p, p ∈ ps ↔ ∃ u, InSome u l ∧ convertPath .posix (w.path u) = .ok p
  | [], _, _ => ⟨[], rfl, fun p => by simp [InSome]⟩
  | a :: l, hc, hp => by
    obtain ⟨us, hus, hm⟩ := (fileCuds_exact a).1 (hc a List.mem_cons_self)
    obtain ⟨ps, hps, hmem⟩ := mapM_exact (fun u => convertPath .posix (w.path u)) us (fun u hu => hp u ⟨a, List.mem_cons_self, (hm u).1 hu⟩)
    obtain ⟨qs, hqs, hmq⟩ := moveEach_none temp w l (fun b hb => hc b (List.mem_cons_of_mem _ hb)) (fun u ⟨b, hb, hi⟩ => hp u ⟨b, List.mem_cons_of_mem _ hb, hi⟩)
    refine ⟨ps ++ qs, by simp only [moveEach, hus, move_none, hps, hqs], fun p => ?_⟩
    rw [List.mem_append, hmem, hmq]
    constructor
    · rintro (⟨u, hu, e⟩ | ⟨u, ⟨b, hb, hi⟩, e⟩)
      · exact ⟨u, ⟨a, List.mem_cons_self, (hm u).1 hu⟩, e⟩
      · exact ⟨u, ⟨b, List.mem_cons_of_mem _ hb, hi⟩, e⟩
    · rintro ⟨u, ⟨b, hb, hi⟩, e⟩
      rcases List.mem_cons.1 hb with rfl | hb
      · exact Or.inl ⟨u, (hm u).2 hi, e⟩
      · exact Or.inr ⟨u, ⟨b, hb, hi⟩, e⟩

theorem in_seq (u : Nat) (l : List Arg) : In (.cuds u true) (.seq l) ↔ InSome u l :=
  ⟨fun h => by cases h with | seq ha hx => exact ⟨_, ha, hx⟩, fun ⟨_, ha, hx⟩ => .seq ha hx⟩

/-- Proof device; nothing in /repo. -/
def groups (buffers : Option Buffers) (items : List (String × Arg)) : List Arg := (match buffers with
    | none => []
    | some b => [.seq b.added, .seq b.updated]) ++ items.map (·.2)

theorem inSome_groups (u : Nat) (buffers : Option Buffers) (items : List (String × Arg)) : InSome u (groups buffers items) ↔ InSome u (carried buffers items) := by
  unfold groups carried
  cases buffers with
  | none => exact Iff.rfl
  | some b =>
    constructor
    · rintro ⟨a, ha, hi⟩
      simp only [List.cons_append, List.nil_append, List.mem_cons] at ha
      rcases ha with rfl | rfl | ha
      · obtain ⟨c, hc, h⟩ := (in_seq u _).1 hi
        exact ⟨c, by simp [hc], h⟩
      · obtain ⟨c, hc, h⟩ := (in_seq u _).1 hi
        exact ⟨c, by simp [hc], h⟩
      · exact ⟨a, List.mem_append_right _ ha, hi⟩
    · rintro ⟨a, ha, hi⟩
      rcases List.mem_append.1 ha with ha | ha
      · rcases List.mem_append.1 ha with ha | ha
        · exact ⟨.seq b.added, by simp, (in_seq u _).2 ⟨a, ha, hi⟩⟩
        · exact ⟨.seq b.updated, by simp, (in_seq u _).2 ⟨a, ha, hi⟩⟩
      · exact ⟨a, List.mem_append_right _ ha, hi⟩

theorem clean_groups {buffers : Option Buffers} {items : List (String × Arg)} (h : ∀ a ∈ carried buffers items, Clean a) : ∀ a ∈ groups buffers items, Clean a := by
  unfold groups
  unfold carried at h
  cases buffers with
  | none => exact h
  | some b =>
    intro a ha
    simp only [List.cons_append, List.nil_append, List.mem_cons] at ha
    rcases ha with rfl | rfl | ha
    · intro hi
      cases hi with
      | seq hc hx => exact h _ (by simp [hc]) hx
    · intro hi
      cases hi with
      | seq hc hx => exact h _ (by simp [hc]) hx
    · exact h a (List.mem_append_right _ ha)

/-- **C98** (the server). The files the server sends with an answer are exactly those of the file objects in the added, the updated and the result; nothing is moved, and the deleted objects
have no influence. -/
theorem server_files (buffers : Option Buffers) (items : List (String × Arg)) (w : World) (hc : ∀ a ∈ carried buffers items, Clean a)
    (hp : ∀ u, InSome u (carried buffers items) → ¬ ('/' ∈ (w.path u).toList ∧ '\\' ∈ (w.path u).toList)) :
    ∃ ps, serializeFiles none buffers items w = (w, .ok ps) ∧ ∀ p, p ∈ ps ↔ ∃ u, InSome u (carried buffers items) ∧ convertPath .posix (w.path u) = .ok p := by
  obtain ⟨ps, h, hm⟩ := moveEach_none none w (groups buffers items) (clean_groups hc) (fun u hu => by
    obtain ⟨q, hq, -⟩ := (convert_path_exact .posix (w.path u)).2 (hp u ((inSome_groups u _ _).1 hu))
    exact ⟨q, hq⟩)
  refine ⟨ps, h, fun p => (hm p).trans ?_⟩
  constructor
  · rintro ⟨u, hu, e⟩; exact ⟨u, (inSome_groups u _ _).1 hu, e⟩
  · rintro ⟨u, hu, e⟩; exact ⟨u, (inSome_groups u _ _).2 hu, e⟩

/-! ### the client moves what it sends -/

theorem convert_no_back {p q : String} (h : convertPath .posix p = .ok q) : '\\' ∉ q.toList := by
  rcases convert_spec .posix p with ⟨-, e⟩ | ⟨-, e⟩
  · rw [e] at h; simp at h
  · rw [e] at h
    obtain rfl := Except.ok.inj h
    rw [String.toList_ofList]
    intro hm
    obtain ⟨c, -, hc⟩ := List.mem_map.1 hm
    by_cases hs : isSep c = true
    · rw [if_pos hs] at hc; exact absurd hc (by decide)
    · rw [if_neg hs] at hc
      subst hc
      exact hs rfl

theorem convert_id {p : String} (h : '\\' ∉ p.toList) : convertPath .posix p = .ok p := by
  have : pathType p = .ok .linux := by
    unfold pathType
    rw [if_neg (fun hh => h hh.1)]
    by_cases h1 : '/' ∈ p.toList
    · rw [if_pos ⟨h1, h⟩]
    · rw [if_neg (fun hh => h1 hh.1), if_pos ⟨h1, h⟩]
  unfold convertPath
  rw [this]

theorem dest_back {target : String} (ht : '\\' ∉ target.toList) (u : Nat) {p : String} (h : '\\' ∉ p.toList) : '\\' ∉ (destination target u p).toList := by
  unfold destination
  rw [join_toList _ (targetName_slash u p), List.mem_append, not_or]
  exact ⟨dirPrefix_back ht, targetName_back u h⟩

theorem dest_again (target : String) (u : Nat) (p : String) : destination target u (destination target u p) = destination target u p := by
  unfold destination
  rw [basename_join _ (targetName_slash u p), targetName_again]

/-- Specification: the file of the object lies in the directory under the name it gets there. -/
def Settled (target : String) (w : World) (u : Nat) : Prop := ∃ p, convertPath .posix (w.path u) = .ok p ∧ p = destination target u p

theorem moveOne_cases {target : String} {w : World} {u : Nat} {fs : FS} {p : String} {m : Option String}
    (h : moveOne none target w.fs u (w.path u) = .ok (fs, p, m)) :
    (m = none ∧ fs = w.fs ∧ p = w.path u) ∨
    (∃ q b, convertPath .posix (w.path u) = .ok q ∧ q ≠ destination target u q ∧ w.fs.file q = some b ∧ m = some (destination target u q) ∧ p = destination target u q ∧
      fs = w.fs.write (destination target u q) b) := by
  unfold moveOne at h
  rcases hq : convertPath .posix (w.path u) with e | q
  · rw [hq] at h; simp at h
  · rw [hq] at h
    simp only at h
    by_cases hcond : w.fs.dir target = true ∧ w.fs.exists (source none q) = true ∧ ¬ (w.fs.exists (destination target u q) = true ∧ source none q = destination target u q)
    · rw [if_pos hcond] at h
      have hs : source none q = q := rfl
      rw [hs] at h hcond
      rcases hb : w.fs.file q with _ | b
      · rw [hb] at h; simp at h
      · rw [hb] at h
        simp only [Except.ok.injEq, Prod.mk.injEq] at h
        obtain ⟨h1, h2, h3⟩ := h
        refine Or.inr ⟨q, b, rfl, ?_, hb, h3.symm, h2.symm, h1.symm⟩
        intro e
        exact hcond.2.2 ⟨by rw [← e]; exact hcond.2.1, e⟩
    · rw [if_neg hcond] at h
      simp only [Except.ok.injEq, Prod.mk.injEq] at h
      exact Or.inl ⟨h.2.2.symm, h.1.symm, h.2.1.symm⟩

theorem setPath_self (w : World) (u : Nat) : w.setPath w.fs u (w.path u) = w := by
  obtain ⟨fs, path⟩ := w
  unfold World.setPath
  congr 1
  funext v
  by_cases h : v = u
  · simp [h]
  · simp [h]

theorem write_exists {fs : FS} {D q : String} {b : Bytes} (h : fs.exists q = true) : (fs.write D b).exists q = true := by
  unfold FS.exists FS.write at *
  simp only
  by_cases he : q = D
  · simp [he]
  · simpa [he] using h

/-- Proof device; nothing in /repo: one move. -/
theorem moveOne_step {target : String} (ht : '\\' ∉ target.toList) {w : World} {u : Nat} {fs : FS} {p : String} {m : Option String}
    (h : moveOne none target w.fs u (w.path u) = .ok (fs, p, m)) :
    (m = none ∧ w.setPath fs u p = w) ∨
    (∃ D q, m = some D ∧ D = destination target u q ∧ ¬ Settled target w u ∧ Settled target (w.setPath fs u p) u ∧ (w.setPath fs u p).path u = D ∧
      (∀ v, v ≠ u → (w.setPath fs u p).path v = w.path v) ∧ (∀ x, w.fs.exists x = true → (w.setPath fs u p).fs.exists x = true) ∧ ∀ d, (w.setPath fs u p).fs.dir d = w.fs.dir d) := by
  rcases moveOne_cases h with ⟨e1, e2, e3⟩ | ⟨q, b, hq, hne, -, e1, e2, e3⟩
  · refine Or.inl ⟨e1, ?_⟩
    rw [e2, e3, setPath_self]
  · refine Or.inr ⟨destination target u q, q, e1, rfl, ?_, ?_, ?_, ?_, ?_, ?_⟩
    · rintro ⟨q', hq', e⟩
      rw [hq] at hq'
      rw [← Except.ok.inj hq'] at e
      exact hne e
    · refine ⟨destination target u q, ?_, (dest_again target u q).symm⟩
      have : (w.setPath fs u p).path u = destination target u q := by simp only [World.setPath, if_true, e2]
      rw [this]
      exact convert_id (dest_back ht u (convert_no_back hq))
    · simp only [World.setPath, if_true, e2]
    · intro v hv
      simp only [World.setPath, if_neg hv]
    · intro x hx
      show fs.exists x = true
      rw [e3]
      exact write_exists hx
    · intro d
      show fs.dir d = _
      rw [e3]
      rfl

theorem settled_congr {target : String} {w w1 : World} {v : Nat} (h : w1.path v = w.path v) : Settled target w1 v ↔ Settled target w v := by
  unfold Settled
  rw [h]

theorem settled_of {target : String} {w w1 : World} {v : Nat} (h : w1.path v = w.path v) (hs : Settled target w v) : Settled target w1 v := (settled_congr h).2 hs

/-- Proof device; nothing in /repo: what moving keeps, and that what is reported was not settled before and is settled afterwards. -/
theorem moveAll_inv {target : String} (ht : '\\' ∉ target.toList) (us : List Nat) : ∀ (w w' : World) (ms : List String), moveAll none target us w = (w', .ok ms) →
    (∀ u, Settled target w u → w'.path u = w.path u) ∧ (∀ u, u ∉ us → w'.path u = w.path u) ∧
    (∀ m ∈ ms, ∃ u ∈ us, ¬ Settled target w u ∧ w'.path u = m ∧ ∃ q, m = destination target u q) ∧
    ((∀ u ∈ us, ∀ v ∈ us, u ≠ v → ∀ a b, targetName u a ≠ targetName v b) → ms.Nodup) := by
  induction us with
  | nil =>
    intro w w' ms h
    simp only [moveAll, Prod.mk.injEq, Except.ok.injEq] at h
    obtain ⟨rfl, rfl⟩ := h
    exact ⟨fun _ _ => rfl, fun _ _ => rfl, by simp, fun _ => List.nodup_nil⟩
  | cons u us ih =>
    intro w w' ms h
    unfold moveAll at h
    rcases h1 : moveOne none target w.fs u (w.path u) with e | ⟨fs, p, m⟩
    · rw [h1] at h; simp at h
    rw [h1] at h
    simp only at h
    have hstep := moveOne_step ht h1
    generalize w.setPath fs u p = w1 at h hstep
    clear h1
    rcases h2 : moveAll none target us w1 with ⟨w2, e | ns⟩
    · rw [h2] at h; simp at h
    rw [h2] at h
    simp only [Prod.mk.injEq, Except.ok.injEq] at h
    obtain ⟨rfl, rfl⟩ := h
    obtain ⟨i1, i2, i3, i4⟩ := ih _ _ _ h2
    clear h2 ih
    rcases hstep with ⟨rfl, rfl⟩ | ⟨D, q, rfl, hD, hu, hset, hp, hother, -, -⟩
    · refine ⟨i1, fun v hv => i2 v (fun hh => hv (List.mem_cons_of_mem _ hh)), fun m hm => ?_,
        fun hlt => i4 (fun x hx y hy => hlt x (List.mem_cons_of_mem _ hx) y (List.mem_cons_of_mem _ hy))⟩
      obtain ⟨v, hv, r⟩ := i3 m hm
      exact ⟨v, List.mem_cons_of_mem _ hv, r⟩
    · refine ⟨fun v hv => ?_, fun v hv => ?_, fun m hm => ?_, fun hlt => ?_⟩
      · have hvu : v ≠ u := fun e => hu (e ▸ hv)
        rw [i1 v (settled_of (hother v hvu) hv), hother v hvu]
      · have hvu : v ≠ u := fun e => hv (e ▸ List.mem_cons_self)
        rw [i2 v (fun hh => hv (List.mem_cons_of_mem _ hh)), hother v hvu]
      · rcases List.mem_cons.1 hm with hm | hm
        · exact ⟨u, List.mem_cons_self, hu, by rw [i1 u hset, hp, hm], q, by rw [hm, hD]⟩
        · obtain ⟨v, hv, hns, r⟩ := i3 m hm
          have hvu : v ≠ u := fun e => hns (e ▸ hset)
          exact ⟨v, List.mem_cons_of_mem _ hv, fun hh => hns (settled_of (hother v hvu) hh), r⟩
      · show (D :: ns).Nodup
        rw [List.nodup_cons]
        refine ⟨fun hm => ?_, i4 (fun x hx y hy => hlt x (List.mem_cons_of_mem _ hx) y (List.mem_cons_of_mem _ hy))⟩
        obtain ⟨v, hv, hns, -, q', hq'⟩ := i3 _ hm
        have hvu : v ≠ u := fun e => hns (e ▸ hset)
        rw [hD] at hq'
        unfold destination at hq'
        exact hlt u List.mem_cons_self v (List.mem_cons_of_mem _ hv) hvu.symm _ _ (join_inj _ (targetName_slash u q) (targetName_slash v q') hq')

/-- Proof device; nothing in /repo: a file that is not settled is moved. -/
theorem moveAll_moves {target : String} (ht : '\\' ∉ target.toList) : ∀ (us : List Nat) (w w' : World) (ms : List String), moveAll none target us w = (w', .ok ms) →
    w.fs.dir target = true → ∀ u ∈ us, ∀ q, convertPath .posix (w.path u) = .ok q → w.fs.exists q = true → q ≠ destination target u q → destination target u q ∈ ms
  | u :: us, w, w', ms, h, hd, v, hv, q, hq, hex, hne => by
    unfold moveAll at h
    rcases h1 : moveOne none target w.fs u (w.path u) with e | ⟨fs, p, m⟩
    · rw [h1] at h; simp at h
    rw [h1] at h
    simp only at h
    rcases h2 : moveAll none target us (w.setPath fs u p) with ⟨w2, r⟩
    rw [h2] at h
    rcases r with e | ns
    · simp at h
    simp only [Prod.mk.injEq, Except.ok.injEq] at h
    obtain ⟨rfl, rfl⟩ := h
    by_cases hvu : v = u
    · subst hvu
      rcases moveOne_cases h1 with ⟨rfl, rfl, rfl⟩ | ⟨q', b, hq', -, -, rfl, -, -⟩
      · exfalso
        unfold moveOne at h1
        rw [hq] at h1
        simp only at h1
        have hcond : w.fs.dir target = true ∧ w.fs.exists (source none q) = true ∧ ¬ (w.fs.exists (destination target v q) = true ∧ source none q = destination target v q) :=
          ⟨hd, hex, fun hh => hne hh.2⟩
        rw [if_pos hcond] at h1
        split at h1 <;> simp at h1
      · rw [hq] at hq'
        obtain rfl := Except.ok.inj hq'
        simp
    · have hv' : v ∈ us := (List.mem_cons.1 hv).resolve_left hvu
      refine List.mem_append_right _ (moveAll_moves ht us _ _ _ h2 ?_ v hv' q ?_ ?_ hne)
      · rcases moveOne_cases h1 with ⟨-, rfl, -⟩ | ⟨q', b, -, -, -, -, -, rfl⟩
        · exact hd
        · exact hd
      · simpa [World.setPath, hvu] using hq
      · show fs.exists q = true
        rcases moveOne_cases h1 with ⟨-, rfl, -⟩ | ⟨q', b, -, -, -, -, -, rfl⟩
        · exact hex
        · exact write_exists hex

theorem moveAll_append {temp : Option String} {target : String} : ∀ (us vs : List Nat) (w : World), moveAll temp target (us ++ vs) w = match moveAll temp target us w with
    | (w, .error e) => (w, .error e)
    | (w, .ok ms) => match moveAll temp target vs w with
      | (w, .error e) => (w, .error e)
      | (w, .ok ns) => (w, .ok (ms ++ ns))
  | [], vs, w => by
    simp only [List.nil_append, moveAll]
    rcases moveAll temp target vs w with ⟨w', e | r⟩ <;> rfl
  | u :: us, vs, w => by
    simp only [List.cons_append, moveAll]
    rcases moveOne temp target w.fs u (w.path u) with e | ⟨fs, p, m⟩
    · rfl
    simp only [moveAll_append us vs]
    rcases moveAll temp target us (w.setPath fs u p) with ⟨w1, e | r⟩
    · rfl
    simp only
    rcases moveAll temp target vs w1 with ⟨w2, e | r⟩
    · rfl
    · simp [List.append_assoc]

/-- Proof device; nothing in /repo: the moves of a message are the moves of all its file objects, in order. -/
theorem moveEach_flat {temp : Option String} {target : String} : ∀ (l : List Arg) (w w' : World) (ms : List String), moveEach temp (some target) l w = (w', .ok ms) →
    ∃ us, moveAll temp target us w = (w', .ok ms) ∧ ∀ u, u ∈ us ↔ InSome u l
  | [], w, w', ms, h => ⟨[], h, by simp [InSome]⟩
  | a :: l, w, w', ms, h => by
    unfold moveEach at h
    by_cases ha : Clean a
    · obtain ⟨us, hus, hm⟩ := (fileCuds_exact a).1 ha
      rw [hus] at h
      simp only [move] at h
      rcases h1 : moveAll temp target us w with ⟨w1, e | ms1⟩
      · rw [h1] at h; simp at h
      rw [h1] at h
      simp only at h
      rcases h2 : moveEach temp (some target) l w1 with ⟨w2, e | ms2⟩
      · rw [h2] at h; simp at h
      rw [h2] at h
      simp only [Prod.mk.injEq, Except.ok.injEq] at h
      obtain ⟨rfl, rfl⟩ := h
      obtain ⟨vs, hv, hmv⟩ := moveEach_flat l _ _ _ h2
      refine ⟨us ++ vs, by rw [moveAll_append, h1]; simp only [hv], fun u => ?_⟩
      rw [List.mem_append, hm, hmv]
      simp [InSome]
    · rw [(fileCuds_exact a).2 ha] at h
      simp at h

/-- **C98** (the client). A message of the client that is sent carries every file of a file object in the added, the updated or the arguments that is not yet in the client's directory under
the name it gets there, and only such files; each at most once, however often its object occurs in the message; afterwards the objects of the files sent have the paths of the copies. -/
theorem client_files {target : String} (ht : '\\' ∉ target.toList) {buffers : Option Buffers} {items : List (String × Arg)} {w w' : World} {ms : List String}
    (hlt : ∀ u, InSome u (carried buffers items) → u < 2 ^ 128) (hd : w.fs.dir target = true) (h : serializeFiles (some target) buffers items w = (w', .ok ms)) :
    ms.Nodup ∧
    (∀ m ∈ ms, ∃ u, InSome u (carried buffers items) ∧ ¬ Settled target w u ∧ w'.path u = m) ∧
    (∀ u, InSome u (carried buffers items) → ∀ q, convertPath .posix (w.path u) = .ok q → w.fs.exists q = true → q ≠ destination target u q →
      destination target u q ∈ ms ∧ w'.path u = destination target u q) ∧
    (∀ u, ¬ InSome u (carried buffers items) → w'.path u = w.path u) := by
  obtain ⟨us, hm, hmem⟩ := moveEach_flat (groups buffers items) w w' ms h
  have hmem' : ∀ u, u ∈ us ↔ InSome u (carried buffers items) := fun u => (hmem u).trans (inSome_groups u _ _)
  obtain ⟨i1, i2, i3, i4⟩ := moveAll_inv ht us w w' ms hm
  have hlt' : ∀ u ∈ us, u < 2 ^ 128 := fun u hu => hlt u ((hmem' u).1 hu)
  refine ⟨i4 (fun x hx y hy hxy => targetName_distinct (hlt' x hx) (hlt' y hy) hxy), fun m hmm => ?_, fun u hu q hq hex hne => ?_, fun u hu => i2 u (fun hh => hu ((hmem' u).1 hh))⟩
  · obtain ⟨u, hu, hns, hp, -⟩ := i3 m hmm
    exact ⟨u, (hmem' u).1 hu, hns, hp⟩
  · have hin := moveAll_moves ht us w w' ms hm hd u ((hmem' u).2 hu) q hq hex hne
    refine ⟨hin, ?_⟩
    obtain ⟨v, hv, -, hp, q', hq'⟩ := i3 _ hin
    by_cases e : u = v
    · subst e; exact hp
    · exfalso
      unfold destination at hq'
      exact targetName_distinct (hlt u hu) (hlt' v hv) e _ _ (join_inj _ (targetName_slash u q) (targetName_slash v q') hq')

/-- **C98** (receiving). The files of the deleted objects of a message are not touched: the receiver moves the same files whatever the message deletes. -/
theorem deleted_ignored (temp target : Option String) (pre post : List (String × Arg)) (a : Arg) (w : World) :
    deserializeFiles temp target (pre ++ ("deleted", a) :: post) w = deserializeFiles temp target (pre ++ post) w := by
  unfold deserializeFiles
  simp

/-! ### fingerprints -/

theorem hashLoop_all (fed rest : Bytes) : hashLoop fed rest = fed ++ rest := by
  induction h : rest.length using Nat.strongRecOn generalizing fed rest with
  | ind n ih =>
    subst h
    unfold hashLoop
    split
    · rename_i h
      have : rest = [] := by
        cases rest with
        | nil => rfl
        | cons c cs => simp [bufSize] at h
      simp [this]
    · rename_i c cs h
      have hne : rest ≠ [] := by rintro rfl; simp at h
      have hlen := List.length_pos_iff.2 hne
      rw [ih (rest.drop bufSize).length (by rw [List.length_drop]; have : 0 < bufSize := by decide
                                            omega) _ _ rfl, ← h, List.append_assoc, List.take_append_drop]

/-- **C98** (fingerprint). The fingerprint of a file is the hash of its whole content, whatever its length. -/
theorem hash_whole {H : Type} (sha : Bytes → H) (content : Bytes) : getHash sha content = sha content := by
  unfold getHash
  rw [hashLoop_all, List.nil_append]

theorem getHashDir_acc {H : Type} (sha : Bytes → H) : ∀ (l : List (String × Entry)) (r : String → Option H) (n : String), (l.map (·.1)).Nodup →
    (∀ b, (n, .file b) ∈ l → getHashDir sha l r n = some (sha b)) ∧ ((∀ b, (n, Entry.file b) ∉ l) → getHashDir sha l r n = r n)
  | [], r, n, _ => ⟨fun b h => (nomatch h), fun _ => rfl⟩
  | (m, e) :: l, r, n, hn => by
    rw [List.map_cons, List.nodup_cons] at hn
    have hmem : ∀ b, (n, Entry.file b) ∈ l → n ∈ l.map (·.1) := fun b h => List.mem_map.2 ⟨_, h, rfl⟩
    cases e with
    | other =>
      have ih := getHashDir_acc sha l r n hn.2
      refine ⟨fun b hb => ?_, fun h => ih.2 (fun b hb => h b (List.mem_cons_of_mem _ hb))⟩
      rcases List.mem_cons.1 hb with hb | hb
      · simp at hb
      · exact ih.1 b hb
    | file c =>
      have ih := getHashDir_acc sha l (upd r m (getHash sha c)) n hn.2
      refine ⟨fun b hb => ?_, fun h => ?_⟩
      · rcases List.mem_cons.1 hb with hb | hb
        · simp only [Prod.mk.injEq, Entry.file.injEq] at hb
          obtain ⟨rfl, rfl⟩ := hb
          show getHashDir sha l (upd r n (getHash sha b)) n = _
          rw [ih.2 (fun b' hb' => hn.1 (hmem b' hb')), hash_whole]
          simp [upd]
        · exact ih.1 b hb
      · show getHashDir sha l (upd r m (getHash sha c)) n = _
        rw [ih.2 (fun b hb => h b (List.mem_cons_of_mem _ hb))]
        have : n ≠ m := fun e => h c (by rw [e]; exact List.mem_cons_self)
        simp [upd, this]

/-- **C98** (the directory of the client). The fingerprints a client reports when it connects are exactly those of the regular files of its directory. -/
theorem hashDir_exact {H : Type} (sha : Bytes → H) (l : List (String × Entry)) (hn : (l.map (·.1)).Nodup) (n : String) (h : H) :
    getHashDir sha l (fun _ => none) n = some h ↔ ∃ b, (n, .file b) ∈ l ∧ h = sha b := by
  have := getHashDir_acc sha l (fun _ => none) n hn
  constructor
  · intro he
    by_cases hx : ∃ b, (n, Entry.file b) ∈ l
    · obtain ⟨b, hb⟩ := hx
      rw [this.1 b hb] at he
      exact ⟨b, hb, (Option.some.inj he).symm⟩
    · rw [this.2 (fun b hb => hx ⟨b, hb⟩)] at he
      simp at he
  · rintro ⟨b, hb, rfl⟩
    exact this.1 b hb

/-- **C98** (not sent again). The first file of an answer is sent to a client that has just connected if and only if no regular file of its directory has the same name and a content with the
same hash. -/
theorem known_file {H : Type} [DecidableEq H] (sha : Bytes → H) (l : List (String × Entry)) (hn : (l.map (·.1)).Nodup) (f : File) :
    (filterFiles sha [some f] (getHashDir sha l (fun _ => none))).1 = [] ↔ ∃ b, (basename f.path, Entry.file b) ∈ l ∧ sha f.content = sha b := by
  have hk := checkHash_fst sha f (getHashDir sha l (fun _ => none))
  rw [hashDir_exact sha l hn] at hk
  rw [← hk]
  rcases hc : checkHash sha f (getHashDir sha l (fun _ => none)) with ⟨b, t⟩
  simp only [filterFiles, hc]
  cases b <;> simp

end Osp.Files
