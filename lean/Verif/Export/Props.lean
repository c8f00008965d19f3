import Verif.Export.Model
import Verif.Search.Props
/-!
# Export and import of objects (C70)

The specification is stated with triples of the two sessions, reachability over links (`Reaches`), registered objects, and the answers of the API.
-/
namespace Osp.Export
open Osp.Cuds Osp.Search

/-! ### Specification -/

/-- `d` is the document of the object `u`: all triples of the object and the classes of the objects it is linked to. -/
def DocOf (g : Graph) (u : Uid) (d : Doc) : Prop :=
  ∀ t, t ∈ d ↔ t ∈ g ∧ (t.s = u ∨ (t.p = .type ∧ ∃ p, (⟨u, p, .cuds t.s⟩ : Triple) ∈ g))

/-- `t'` is `t` after the objects `objs` of a session with graph `g` were imported. -/
structure Imported (g : Graph) (objs : List Uid) (t t' : Sess) : Prop where
  /-- the objects are registered, nothing else changes -/
  reg : ∀ u, u ∈ t'.reg ↔ u ∈ t.reg ∨ u ∈ objs
  /-- an imported object the session knew: its triples are replaced -/
  replaced : ∀ x, x.s ∈ objs → x.s ∈ t.reg → (x ∈ t'.g ↔ x ∈ g)
  /-- an imported object the session did not know: its triples are added -/
  created : ∀ x, x.s ∈ objs → x.s ∉ t.reg → (x ∈ t'.g ↔ x ∈ t.g ∨ x ∈ g)
  /-- any other object: only the class may be added, if an imported object is linked to it -/
  others : ∀ x, x.s ∉ objs → (x ∈ t'.g ↔ x ∈ t.g ∨ (x ∈ g ∧ x.p = .type ∧ ∃ u ∈ objs, ∃ p, (⟨u, p, .cuds x.s⟩ : Triple) ∈ g))
  /-- a session without root gets the first new object as root -/
  root : t'.root = t.root.or (objs.find? (fun u => u ∉ t.reg))
  /-- the graph stays a set -/
  nodup : t.g.Nodup → t'.g.Nodup

/-- The order in which rdflib enumerates the triples of a document is arbitrary. -/
def Enumerates (enum : Graph → Doc) : Prop := ∀ g t, t ∈ enum g ↔ t ∈ g

/-! ### Lemmas -/

theorem mem_addAll {g : Graph} {ts : List Triple} {t : Triple} : t ∈ addAll g ts ↔ t ∈ g ∨ t ∈ ts := (foldl_gadd ts g).1 t

theorem nodup_addAll {g : Graph} {ts : List Triple} (h : g.Nodup) : (addAll g ts).Nodup := (foldl_gadd ts g).2 h

theorem mem_own {g : Graph} {u : Uid} {t : Triple} : t ∈ g.triples (some u) none none ↔ t ∈ g ∧ t.s = u := by
  rw [mem_gtriples, matchesPat_iff]
  constructor
  · rintro ⟨h, a, _⟩; exact ⟨h, (a _ rfl).symm⟩
  · rintro ⟨h, rfl⟩; exact ⟨h, fun a e => (by cases e; rfl), fun a e => (by cases e), fun a e => (by cases e)⟩

theorem mem_tripleList {g : Graph} {u : Uid} {t : Triple} :
    t ∈ tripleList g u ↔ t ∈ g ∧ (t.s = u ∨ (t.p = .type ∧ ∃ p, (⟨u, p, .cuds t.s⟩ : Triple) ∈ g)) := by
  unfold tripleList
  rw [List.mem_append, mem_own, List.mem_flatMap]
  have key : (∃ a ∈ dedup ((g.triples (some u) none none).filterMap targetOf), t ∈ g.triples (some a) (some .type) none) ↔
      t ∈ g ∧ t.p = .type ∧ ∃ p, (⟨u, p, .cuds t.s⟩ : Triple) ∈ g := by
    constructor
    · rintro ⟨a, ha, ht⟩
      rw [mem_gtriples, matchesPat_iff] at ht
      obtain ⟨h1, h2, h3, _⟩ := ht
      have h2 := h2 _ rfl
      have h3 := h3 _ rfl
      rw [mem_dedup, List.mem_filterMap] at ha
      obtain ⟨y, hy, hya⟩ := ha
      rw [mem_own] at hy
      obtain ⟨ys, yp, yo⟩ := y
      obtain ⟨hy1, rfl⟩ := hy
      cases yo with
      | cuds x =>
        simp only [targetOf, Option.some.injEq] at hya
        refine ⟨h1, h3.symm, yp, ?_⟩
        rw [← h2, ← hya]
        exact hy1
      | val v => cases hya
      | cls c => cases hya
    · rintro ⟨h1, h2, p, h3⟩
      refine ⟨t.s, ?_, ?_⟩
      · rw [mem_dedup, List.mem_filterMap]
        exact ⟨_, mem_own.2 ⟨h3, rfl⟩, rfl⟩
      · rw [mem_gtriples, matchesPat_iff]
        exact ⟨h1, fun a e => (by cases e; rfl), fun a e => (by cases e; exact h2.symm), fun a e => (by cases e)⟩
  rw [key]
  constructor
  · rintro (⟨a, b⟩ | ⟨a, b⟩)
    · exact ⟨a, .inl b⟩
    · exact ⟨a, .inr b⟩
  · rintro ⟨a, b | b⟩
    · exact .inl ⟨a, b⟩
    · exact .inr ⟨a, b⟩

/-- The document of an object says what it should. -/
theorem document_ok {enum : Graph → Doc} (he : Enumerates enum) (g : Graph) (u : Uid) : DocOf g u (document enum g u) := by
  intro t
  rw [document, he, mem_addAll, mem_tripleList]
  simp

/-- Classes are no objects. -/
def Typed (g : Graph) : Prop := ∀ t ∈ g, t.p = .type → ∀ x, t.o ≠ .cuds x

theorem thisSubject_ok {g : Graph} (hg : Typed g) {u : Uid} {d : Doc} (hd : DocOf g u d) (hu : ∃ t ∈ g, t.s = u) : thisSubject d = some u := by
  unfold thisSubject
  cases hf : d.find? (fun t => t.p ≠ .type) with
  | some t =>
    have h1 := List.mem_of_find?_eq_some hf
    have h2 := List.find?_some hf
    simp only [ne_eq, decide_not, Bool.not_eq_eq_eq_not, Bool.not_true, decide_eq_false_iff_not] at h2
    obtain ⟨_, h | h⟩ := (hd t).1 h1
    · simp [h]
    · exact absurd h.1 h2
  | none =>
    rw [List.find?_eq_none] at hf
    have hall : ∀ t ∈ d, t.p = .type := fun t ht => by simpa using hf t ht
    obtain ⟨t0, ht0, rfl⟩ := hu
    have h0 := (hd t0).2 ⟨ht0, .inl rfl⟩
    cases d with
    | nil => cases h0
    | cons t d =>
      simp only [Option.none_or, List.head?_cons, Option.map_some, Option.some.injEq]
      obtain ⟨_, h | ⟨_, p, h⟩⟩ := (hd t).1 (by simp)
      · exact h
      · have := hall _ ((hd _).2 ⟨h, .inl rfl⟩)
        exact absurd rfl (hg _ h this _)

/-- One document. -/
theorem toCudsObject_ok {O : Onto} {g : Graph} (hg : Typed g) {u : Uid} {d : Doc} (hd : DocOf g u d) (hu : ∃ t ∈ g, t.s = u) (h0 : u ≠ 0) (t : Sess) :
    ∃ t', toCudsObject O t d = ⟨.ok (some u), t'⟩ ∧ Imported g [u] t t' := by
  unfold toCudsObject
  rw [thisSubject_ok hg hd hu]
  simp only
  have hmem : ∀ x, x ∈ d.filter (fun t => t.s = u) ++ d.filter (fun t => t.s ≠ u) ↔ x ∈ d := by
    intro x
    rw [List.mem_append, List.mem_filter, List.mem_filter]
    by_cases h : x.s = u <;> simp [h]
  obtain ⟨t0, ht0, hs0⟩ := hu
  have hne : t0 ∈ d.filter (fun t => t.s = u) := List.mem_filter.2 ⟨(hd t0).2 ⟨ht0, .inl hs0⟩, by simp [hs0]⟩
  cases hl : d.filter (fun t => t.s = u) with
  | nil => rw [hl] at hne; cases hne
  | cons x xs =>
    have hx : x.s = u := by
      have : x ∈ d.filter (fun t => t.s = u) := by rw [hl]; simp
      simpa using (List.mem_filter.1 this).2
    rw [hl] at hmem
    unfold createFromTriples
    simp only [hx, Bool.false_eq_true, if_false, h0]
    by_cases hr : u ∈ t.reg
    · simp only [hr, if_true]
      refine ⟨_, rfl, ?_, ?_, ?_, ?_, ?_, fun h => nodup_addAll (nodup_gremove h)⟩
      · intro v
        simp only [List.mem_singleton]
        constructor
        · exact .inl
        · rintro (h | rfl)
          · exact h
          · exact hr
      · intro y hy _
        simp only [List.mem_singleton] at hy
        simp only [mem_addAll, hmem, mem_gremove, Bool.eq_false_iff, ne_eq, matchesPat_iff]
        rw [hd]
        constructor
        · rintro (⟨_, h⟩ | h)
          · exact absurd ⟨fun a e => (by cases e; exact hy.symm), fun a e => (by cases e), fun a e => (by cases e)⟩ h
          · exact h.1
        · intro h; exact .inr ⟨h, .inl hy⟩
      · intro y hy hn
        simp only [List.mem_singleton] at hy
        exact absurd (hy ▸ hr) hn
      · intro y hy
        simp only [List.mem_singleton] at hy
        simp only [mem_addAll, hmem, mem_gremove, Bool.eq_false_iff, ne_eq, matchesPat_iff, List.mem_singleton, exists_eq_left]
        rw [hd]
        constructor
        · rintro (⟨h, _⟩ | ⟨h, h' | h'⟩)
          · exact .inl h
          · exact absurd h' hy
          · exact .inr ⟨h, h'⟩
        · rintro (h | ⟨h, h'⟩)
          · exact .inl ⟨h, fun hh => hy (hh.1 _ rfl).symm⟩
          · exact .inr ⟨h, .inr h'⟩
      · simp [hr]
    · simp only [hr, if_false]
      refine ⟨_, rfl, ?_, ?_, ?_, ?_, ?_, nodup_addAll⟩
      · intro v; simp
      · intro y hy hn
        simp only [List.mem_singleton] at hy
        exact absurd (hy ▸ hn) hr
      · intro y hy hn
        simp only [List.mem_singleton] at hy
        simp only [mem_addAll, hmem]
        rw [hd]
        simp [hy]
      · intro y hy
        simp only [List.mem_singleton] at hy
        simp only [mem_addAll, hmem, List.mem_singleton, exists_eq_left]
        rw [hd]
        simp [hy]
      · simp [hr]

theorem find?_congr {α : Type} {p q : α → Bool} {l : List α} (h : ∀ x ∈ l, p x = q x) : l.find? p = l.find? q := by
  induction l with
  | nil => rfl
  | cons x l ih => simp only [List.find?_cons, h x (by simp), ih (fun y hy => h y (by simp [hy]))]

theorem Imported.cons {g : Graph} {u : Uid} {us : List Uid} {t t1 t2 : Sess} (h1 : Imported g [u] t t1) (h2 : Imported g us t1 t2) (hu : u ∉ us) :
    Imported g (u :: us) t t2 := by
  have reg1 : ∀ v, v ∈ t1.reg ↔ v ∈ t.reg ∨ v = u := fun v => by rw [h1.reg]; simp
  have oth1 : ∀ x : Triple, x.s ≠ u → (x ∈ t1.g ↔ x ∈ t.g ∨ (x ∈ g ∧ x.p = .type ∧ ∃ p, (⟨u, p, .cuds x.s⟩ : Triple) ∈ g)) := by
    intro x hx
    rw [h1.others x (by simpa using hx)]
    simp
  refine ⟨?_, ?_, ?_, ?_, ?_, fun h => h2.nodup (h1.nodup h)⟩
  · intro v
    rw [h2.reg, reg1, List.mem_cons, or_assoc]
  · intro x hx hr
    by_cases hxu : x.s = u
    · rw [h2.others x (by rw [hxu]; exact hu), h1.replaced x (by simp [hxu]) hr]
      constructor
      · rintro (h | h)
        · exact h
        · exact h.1
      · exact .inl
    · exact h2.replaced x ((List.mem_cons.1 hx).resolve_left hxu) ((reg1 _).2 (.inl hr))
  · intro x hx hr
    by_cases hxu : x.s = u
    · rw [h2.others x (by rw [hxu]; exact hu), h1.created x (by simp [hxu]) hr]
      constructor
      · rintro ((h | h) | h)
        · exact .inl h
        · exact .inr h
        · exact .inr h.1
      · exact .inl
    · have hxs := (List.mem_cons.1 hx).resolve_left hxu
      rw [h2.created x hxs (by rw [reg1]; simp [hr, hxu]), oth1 x hxu]
      constructor
      · rintro ((h | h) | h)
        · exact .inl h
        · exact .inr h.1
        · exact .inr h
      · rintro (h | h)
        · exact .inl (.inl h)
        · exact .inr h
  · intro x hx
    simp only [List.mem_cons, not_or] at hx
    rw [h2.others x hx.2, oth1 x hx.1]
    simp only [List.mem_cons, exists_eq_or_imp]
    constructor
    · rintro ((h | ⟨a, b, c⟩) | ⟨a, b, c⟩)
      · exact .inl h
      · exact .inr ⟨a, b, .inl c⟩
      · exact .inr ⟨a, b, .inr c⟩
    · rintro (h | ⟨a, b, c | c⟩)
      · exact .inl (.inl h)
      · exact .inl (.inr ⟨a, b, c⟩)
      · exact .inr ⟨a, b, c⟩
  · rw [h2.root, h1.root]
    have hf : us.find? (fun v => v ∉ t1.reg) = us.find? (fun v => v ∉ t.reg) := by
      refine find?_congr fun v hv => ?_
      have : v ≠ u := fun e => hu (e ▸ hv)
      simp [reg1, this]
    rw [hf]
    by_cases hr : u ∈ t.reg
    · simp [hr]
    · simp [hr]

theorem Imported.nil (g : Graph) (t : Sess) : Imported g [] t t := by
  refine ⟨by simp, by simp, by simp, by simp, by simp, id⟩

/-- Several documents. -/
theorem importDocs_ok {O : Onto} {g : Graph} (hg : Typed g) (us : List Uid) (ds : List Doc) (hd : List.Forall₂ (DocOf g) us ds) (hn : us.Nodup)
    (hu : ∀ u ∈ us, (∃ t ∈ g, t.s = u) ∧ u ≠ 0) (t : Sess) :
    ∃ t', importDocs O ds t = ⟨.ok (us.map some), t'⟩ ∧ Imported g us t t' := by
  induction hd generalizing t with
  | nil => exact ⟨t, rfl, .nil g t⟩
  | @cons u d us ds h1 h2 ih =>
    rw [List.nodup_cons] at hn
    obtain ⟨t1, k1, k2⟩ := toCudsObject_ok (O := O) hg h1 (hu u (by simp)).1 (hu u (by simp)).2 t
    obtain ⟨t2, k3, k4⟩ := ih hn.2 (fun v hv => hu v (by simp [hv])) t1
    refine ⟨t2, ?_, k2.cons k4 hn.1⟩
    simp [importDocs, k1, k3]

/-! ### The objects that are exported -/

theorem findLoop_prefix (rec : Uid → List Uid → Option (List Uid × List Uid)) (cs V out out' V' : List Uid)
    (h : findLoop rec cs V out = some (out', V')) : ∃ l, out' = out ++ l := by
  induction cs generalizing V out with
  | nil =>
    simp only [findLoop, Option.some.injEq, Prod.mk.injEq] at h
    exact ⟨[], by simp [h.1]⟩
  | cons c cs ih =>
    unfold findLoop at h
    split at h
    · exact ih _ _ h
    · split at h
      · cases h
      · obtain ⟨l, hl⟩ := ih _ _ h
        exact ⟨_, by rw [hl, List.append_assoc]⟩

theorem findAll_head {succ : Uid → List Uid} {fuel : Nat} {depth : Option Nat} {root : Uid} {V out V' : List Uid}
    (h : findAll succ (fun _ => true) fuel depth root V = some (out, V')) : out.head? = some root := by
  cases fuel with
  | zero => cases h
  | succ fuel =>
    unfold findAll at h
    simp only [if_true] at h
    split at h
    · obtain ⟨l, rfl⟩ := findLoop_prefix _ _ _ _ _ _ h; rfl
    · cases h; rfl
    · obtain ⟨l, rfl⟩ := findLoop_prefix _ _ _ _ _ _ h; rfl

/-- The nil uid is never registered. -/
theorem zero_not_registered {O : Onto} {s : Sess} (hs : Reachable O s) : 0 ∉ s.reg := by
  have hrem : ∀ (s : Sess) self uids rel oc, (remove O s self uids rel oc).st.reg = s.reg := by
    intro s self uids rel oc
    unfold remove
    repeat' (first | split | rfl)
  induction hs with
  | init => simp
  | @step s _ op _ ih =>
    cases op with
    | create u c vals =>
      show 0 ∉ (create s u c vals).st.reg
      unfold create
      by_cases hu : u = 0
      · simp [hu, ih]
      · simp only [hu, if_false]
        split
        · exact ih
        · simp [ih, Ne.symm hu]
    | add self args rel d =>
      show 0 ∉ (add O s self args rel d).st.reg
      unfold add
      repeat' (first | split | exact ih)
    | remove self uids rel oc => show 0 ∉ (remove O s self uids rel oc).st.reg; rw [hrem]; exact ih
    | setAttr u a v =>
      show 0 ∉ (setAttr O s u a v).st.reg
      unfold setAttr
      repeat' (first | split | exact ih)
    | delete u =>
      show 0 ∉ (delete O s u).st.reg
      unfold delete
      have hr := hrem s u [] (some O.relationship) none
      split
      · exact ih
      · split
        · split
          · rename_i h; rw [h] at hr; simp only at hr ⊢; rw [hr]; exact ih
          · rename_i h; rw [h] at hr; simp only [deleteTriples, List.mem_filter, not_and] at hr ⊢; rw [hr]; exact fun h => absurd h ih
        · simp only [deleteTriples, List.mem_filter, not_and]; exact fun h => absurd h ih

theorem typed_of_refines {s : Sess} {A : Abs} (h : Refines s A) : Typed s.g := by
  intro t ht hp x hx
  rcases h.kinds t ht with ⟨c, _, b⟩ | ⟨a, v, b, _⟩ | ⟨r, y, b, _⟩
  · rw [b] at hx; cases hx
  · rw [b] at hp; cases hp
  · rw [b] at hp; cases hp

theorem has_triple {s : Sess} {A : Abs} (h : Refines s A) {u : Uid} (hu : u ∈ s.reg) : ∃ t ∈ s.g, t.s = u := by
  have := (h.reg u).1 hu
  cases hc : A.cls u with
  | none => exact absurd hc this
  | some c => exact ⟨_, (h.type u c).2 hc, rfl⟩

theorem subject_registered {O : Onto} {s : Sess} {A : Abs} (h : Refines s A) (hco : A.Coherent O.inv) {t : Triple} (ht : t ∈ s.g) : t.s ∈ s.reg := by
  obtain ⟨ts, tp, o⟩ := t
  rw [h.reg]
  rcases h.kinds _ ht with ⟨c, a, b⟩ | ⟨a', v, a, b⟩ | ⟨r, y, a, b⟩ <;> simp only at a b <;> subst a b
  · rw [(h.type _ _).1 ht]; simp
  · exact h.owned _ a' (by rw [(h.attr _ _ _).1 ht]; simp)
  · exact hco.src _ _ _ ((h.link _ _ _).1 ht)

theorem within_reaches {O : Onto} {s : Sess} {rel : Option Rel} {x y : Uid} {d : Nat} (h : ReachesWithin O s rel x d y) : Reaches O s rel x y := by
  induction h with
  | refl => exact .refl
  | step _ h1 ih => exact ih.tail h1

/-! ### C70 -/

/-- **C70, export.** `serialize` ends on every session, cyclic or not, and gives one document for each object that is reachable over the relationship
(with a depth limit: for some of the objects within that distance), each once and the given object first; each document contains exactly the
triples of its object and the classes of the objects it is linked to. -/
theorem export_exact {O : Onto} (hW : O.WF) {s : Sess} (hs : Reachable O s) {enum : Graph → Doc} (he : Enumerates enum) (rel : Option Rel)
    (depth : Option Nat) (root : Uid) (hroot : root ∈ s.reg) (fuel : Nat) (hf : s.reg.length + 1 ≤ fuel) :
    ∃ docs objs, serialize O enum s fuel rel depth root = some docs ∧ List.Forall₂ (DocOf s.g) objs docs ∧ objs.Nodup ∧ objs.head? = some root ∧
      (depth = none → ∀ x, x ∈ objs ↔ Reaches O s rel root x) ∧ (∀ d, depth = some d → ∀ x ∈ objs, ReachesWithin O s rel root d x) := by
  have hdocs : ∀ objs : List Uid, List.Forall₂ (DocOf s.g) objs (objs.map (document enum s.g)) := by
    intro objs
    induction objs with
    | nil => exact .nil
    | cons u us ih => exact .cons (document_ok he s.g u) ih
  cases depth with
  | none =>
    obtain ⟨out, V, h1, h2, h3⟩ := find_all_exact hW hs rel (fun _ => true) root hroot fuel hf
    refine ⟨_, out, by rw [serialize, h1]; rfl, hdocs out, h2, findAll_head h1, fun _ x => ?_, fun d e => (by cases e)⟩
    rw [h3]; simp
  | some d =>
    obtain ⟨out, V, h1, h2, h3⟩ := find_depth_sound hW hs rel (fun _ => true) root d hroot fuel hf
    refine ⟨_, out, by rw [serialize, h1]; rfl, hdocs out, h2, findAll_head h1, fun e => (by cases e), fun d' e x hx => ?_⟩
    cases e
    exact (h3 x hx).1

/-- **C70, import.** Reading exported documents into any session succeeds, returns the exported object, and changes the session exactly as
`Imported` says: the exported objects get the triples they had, the other objects at most a class. -/
theorem import_exact {O : Onto} (hW : O.WF) {s : Sess} (hs : Reachable O s) {enum : Graph → Doc} (he : Enumerates enum) (rel : Option Rel)
    (depth : Option Nat) (root : Uid) (hroot : root ∈ s.reg) (fuel : Nat) (hf : s.reg.length + 1 ≤ fuel) :
    ∃ docs objs, serialize O enum s fuel rel depth root = some docs ∧ objs.Nodup ∧ objs.head? = some root ∧ (∀ x ∈ objs, x ∈ s.reg) ∧
      (depth = none → ∀ x, x ∈ objs ↔ Reaches O s rel root x) ∧ (∀ d, depth = some d → ∀ x ∈ objs, ReachesWithin O s rel root d x) ∧
      ∀ t, ∃ t', deserialize O docs t = ⟨.ok (some root), t'⟩ ∧ Imported s.g objs t t' := by
  obtain ⟨docs, objs, h1, h2, h3, h4, h5, h6⟩ := export_exact hW hs he rel depth root hroot fuel hf
  obtain ⟨A, hA, hco⟩ := reachable_view hW hs
  have hreg : ∀ x ∈ objs, x ∈ s.reg := by
    intro x hx
    refine reaches_mem_reg hW hs (rel := rel) hroot ?_
    cases depth with
    | none => exact (h5 rfl x).1 hx
    | some d => exact within_reaches (h6 d rfl x hx)
  refine ⟨docs, objs, h1, h3, h4, hreg, h5, h6, fun t => ?_⟩
  obtain ⟨t', k1, k2⟩ := importDocs_ok (O := O) (typed_of_refines hA) objs docs h2 h3
    (fun u hu => ⟨has_triple hA (hreg u hu), fun e => zero_not_registered hs (e ▸ hreg u hu)⟩) t
  refine ⟨t', ?_, k2⟩
  cases objs with
  | nil => cases h4
  | cons u us =>
    simp only [List.head?_cons, Option.some.injEq] at h4
    subst h4
    simp [deserialize, k1]

theorem head?_congr {α : Type} {l m : List α} (h : ∀ x, x ∈ l ↔ x ∈ m) (h1 : ∀ x ∈ m, ∀ y ∈ m, x = y) : l.head? = m.head? := by
  cases l with
  | nil =>
    cases m with
    | nil => rfl
    | cons y m => exact absurd ((h y).2 (by simp)) (by simp)
  | cons x l =>
    cases m with
    | nil => exact absurd ((h x).1 (by simp)) (by simp)
    | cons y m => simp [h1 x ((h x).1 (by simp)) y (by simp)]

/-- Objects with the same triples have the same class and the same attribute values. -/
theorem same_answers {O : Onto} {s t : Sess} {A : Abs} (h : Refines s A) {u : Uid} (hu : ∀ p o, (⟨u, p, o⟩ : Triple) ∈ t.g ↔ ⟨u, p, o⟩ ∈ s.g) :
    oclass t.g u = oclass s.g u ∧ ∀ a, getAttr O t u a = getAttr O s u a := by
  have hoc : oclass t.g u = oclass s.g u := by
    unfold oclass
    apply head?_congr
    · intro c; rw [mem_oclasses, mem_oclasses, hu]
    · intro c hc c' hc'
      rw [mem_oclasses, h.type] at hc hc'
      rw [hc] at hc'; injection hc'
  refine ⟨hoc, fun a => ?_⟩
  unfold getAttr
  rw [hoc]
  have hh : (t.g.triples (some u) (some (.attr a)) none).head? = (s.g.triples (some u) (some (.attr a)) none).head? := by
    have hm : ∀ (g : Graph) (x : Triple), x ∈ g.triples (some u) (some (.attr a)) none ↔ x ∈ g ∧ x.s = u ∧ x.p = .attr a := by
      intro g x
      rw [mem_gtriples, matchesPat_iff]
      constructor
      · rintro ⟨a, b, c, _⟩; exact ⟨a, (b _ rfl).symm, (c _ rfl).symm⟩
      · rintro ⟨a, b, c⟩; exact ⟨a, fun _ e => (by cases e; exact b.symm), fun _ e => (by cases e; exact c.symm), fun _ e => (by cases e)⟩
    apply head?_congr
    · rintro ⟨xs, xp, xo⟩
      rw [hm, hm]
      constructor
      · rintro ⟨a, b, c⟩; simp only at b c; subst b; exact ⟨(hu _ _).1 a, rfl, c⟩
      · rintro ⟨a, b, c⟩; simp only at b c; subst b; exact ⟨(hu _ _).2 a, rfl, c⟩
    · rintro ⟨xs, xp, xo⟩ hx ⟨ys, yp, yo⟩ hy
      rw [hm] at hx hy
      obtain ⟨h1, h2, h3⟩ := hx
      obtain ⟨k1, k2, k3⟩ := hy
      simp only at h2 h3 k2 k3
      subst h2 h3 k2 k3
      rcases h.kinds _ h1 with ⟨c, e, _⟩ | ⟨a', v, e, e'⟩ | ⟨r, y, e, _⟩
      · cases e
      · simp only at e e'; subst e'
        rcases h.kinds _ k1 with ⟨c, e, _⟩ | ⟨a'', w, e, e''⟩ | ⟨r, y, e, _⟩
        · cases e
        · simp only at e''; subst e''
          have := (h.attr _ _ _).1 k1
          rw [(h.attr _ _ _).1 h1] at this
          injection this with this
          rw [this]
        · cases e
      · cases e
  rw [hh]

/-- The answer of `get` on a graph in which some neighbours may not be registered. -/
theorem get_any {O : Onto} {t : Sess} {u : Uid} (rel : Option Rel) :
    ∃ l, get O t u [] rel none = .ok l ∧
      (∀ x, some x ∈ l ↔ x ∈ t.reg ∧ Linked O t rel u x) ∧ (none ∈ l ↔ ∃ x, x ∉ t.reg ∧ Linked O t rel u x) := by
  obtain ⟨⟨_, hne⟩, h2⟩ := getByOclass_spec O t.g u none (considerRels O t.g u rel)
  have hkeys : ∀ x, x ∈ (getByOclass O t.g u none (considerRels O t.g u rel)).1 ↔ Linked O t rel u x := by
    intro x
    show x ∈ (getByOclass O t.g u none (considerRels O t.g u rel)).2.map (·.1) ↔ _
    rw [Mapping.mem_keys_iff hne]
    constructor
    · rintro ⟨r, hr⟩
      obtain ⟨a, b, _⟩ := (h2 x r).1 hr
      refine ⟨r, mem_targets.1 b, ?_⟩
      intro r' e
      subst e
      simpa using (List.mem_filter.1 a).2
    · rintro ⟨r, a, b⟩
      refine ⟨r, (h2 x r).2 ⟨?_, mem_targets.2 a, by simp [clsOk]⟩⟩
      have : r ∈ neighborRels t.g u := mem_neighborRels.2 ⟨_, a⟩
      unfold considerRels
      cases rel with
      | none => exact this
      | some r' => exact List.mem_filter.2 ⟨this, b r' rfl⟩
  by_cases hc : considerRels O t.g u rel = []
  · refine ⟨[], ?_, ?_⟩
    · have : getRaw O t.g u [] rel none = .ok ([], []) := by simp [getRaw, hc]
      simp [Cuds.get, this, loadCudsObjects_eq]; rfl
    · have hno : ∀ x, ¬ Linked O t rel u x := by
        rw [hc] at hkeys
        intro x hx
        have := (hkeys x).2 hx
        simp [getByOclass] at this
      simp [hno]
  · have : getRaw O t.g u [] rel none = .ok ((getByOclass O t.g u none (considerRels O t.g u rel)).1.map some, (getByOclass O t.g u none (considerRels O t.g u rel)).2) := by
      simp [getRaw, hc]
    refine ⟨(getByOclass O t.g u none (considerRels O t.g u rel)).1.map (fun x => if x ∈ t.reg then some x else none), ?_, ?_, ?_⟩
    · simp only [Cuds.get, this]
      show Except.ok (loadCudsObjects t _) = _
      rw [loadCudsObjects_eq, List.map_map]
      rfl
    · intro x
      simp only [List.mem_map, hkeys]
      constructor
      · rintro ⟨y, hy, e⟩
        split at e
        · injection e with e; subst e; exact ⟨by assumption, hy⟩
        · cases e
      · rintro ⟨a, b⟩; exact ⟨x, b, by simp [a]⟩
    · simp only [List.mem_map, hkeys]
      constructor
      · rintro ⟨y, hy, e⟩
        split at e
        · cases e
        · exact ⟨y, by assumption, hy⟩
      · rintro ⟨y, a, b⟩; exact ⟨y, b, by simp [a]⟩

/-- **C70, round trip.** Reading exported documents into any session made with the API: every exported object answers with the class, the attribute
values and the links it had; `get` gives exactly the neighbours that are known there, and `None` for the others. -/
theorem roundtrip_answers {O : Onto} (hW : O.WF) {s t t' : Sess} (hs : Reachable O s) (ht : Reachable O t) {objs : List Uid}
    (hi : Imported s.g objs t t') (u : Uid) (hu : u ∈ objs) :
    oclass t'.g u = oclass s.g u ∧ (∀ a, getAttr O t' u a = getAttr O s u a) ∧
    (∀ r x, (⟨u, .rel r, .cuds x⟩ : Triple) ∈ t'.g ↔ (⟨u, .rel r, .cuds x⟩ : Triple) ∈ s.g) ∧
    ∀ rel, ∃ l, get O t' u [] rel none = .ok l ∧ (∀ x, some x ∈ l ↔ (x ∈ t.reg ∨ x ∈ objs) ∧ Linked O s rel u x) ∧
      (none ∈ l ↔ ∃ x, x ∉ t.reg ∧ x ∉ objs ∧ Linked O s rel u x) := by
  obtain ⟨A, hA, hAc⟩ := reachable_view hW hs
  obtain ⟨B, hB, hBc⟩ := reachable_view hW ht
  have hsame : ∀ p o, (⟨u, p, o⟩ : Triple) ∈ t'.g ↔ ⟨u, p, o⟩ ∈ s.g := by
    intro p o
    by_cases hr : u ∈ t.reg
    · exact hi.replaced ⟨u, p, o⟩ hu hr
    · rw [hi.created ⟨u, p, o⟩ hu hr]
      constructor
      · rintro (h | h)
        · exact absurd (subject_registered hB hBc h) hr
        · exact h
      · exact .inr
  have hl : ∀ rel x, Linked O t' rel u x ↔ Linked O s rel u x := by
    intro rel x
    constructor
    · rintro ⟨r, a, b⟩; exact ⟨r, (hsame _ _).1 a, b⟩
    · rintro ⟨r, a, b⟩; exact ⟨r, (hsame _ _).2 a, b⟩
  refine ⟨(same_answers (O := O) hA hsame).1, (same_answers hA hsame).2, fun r x => hsame _ _, fun rel => ?_⟩
  obtain ⟨l, h1, h2, h3⟩ := get_any (O := O) (t := t') (u := u) rel
  refine ⟨l, h1, fun x => ?_, ?_⟩
  · rw [h2, hl, hi.reg]
  · rw [h3]
    simp only [hi.reg, hl, not_or, and_assoc]

/-- **C70, other objects.** An object of the target that is not imported and has the class it has in the source keeps its triples. -/
theorem others_unchanged {O : Onto} (hW : O.WF) {s t t' : Sess} (hs : Reachable O s) {objs : List Uid} (hi : Imported s.g objs t t') (v : Uid)
    (hv : v ∉ objs) (hc : ∀ c, (⟨v, .type, .cls c⟩ : Triple) ∈ s.g → (⟨v, .type, .cls c⟩ : Triple) ∈ t.g) (x : Triple) (hx : x.s = v) :
    x ∈ t'.g ↔ x ∈ t.g := by
  obtain ⟨A, hA, _⟩ := reachable_view hW hs
  rw [hi.others x (by rw [hx]; exact hv)]
  constructor
  · rintro (h | ⟨h, hp, _⟩)
    · exact h
    · obtain ⟨xs, xp, xo⟩ := x
      simp only at hx hp
      subst hx hp
      rcases hA.kinds _ h with ⟨c, _, e⟩ | ⟨a, v, e, _⟩ | ⟨q, y, e, _⟩
      · simp only at e; subst e; exact hc c h
      · cases e
      · cases e
  · exact .inl

/-- **C70, the same session.** Exporting objects and reading the documents back into the unchanged session changes nothing. -/
theorem reimport_unchanged {O : Onto} (hW : O.WF) {s s' : Sess} (hs : Reachable O s) {objs : List Uid} (hreg : ∀ x ∈ objs, x ∈ s.reg)
    (hi : Imported s.g objs s s') : (∀ x, x ∈ s'.g ↔ x ∈ s.g) ∧ (∀ u, u ∈ s'.reg ↔ u ∈ s.reg) ∧ s'.root = s.root := by
  refine ⟨fun x => ?_, fun u => ?_, ?_⟩
  · by_cases hx : x.s ∈ objs
    · exact hi.replaced x hx (hreg _ hx)
    · exact others_unchanged hW hs hi x.s hx (fun _ h => h) x rfl
  · rw [hi.reg]
    constructor
    · rintro (h | h)
      · exact h
      · exact hreg u h
    · exact .inl
  · rw [hi.root]
    have : objs.find? (fun u => u ∉ s.reg) = none := by
      rw [List.find?_eq_none]
      intro u hu; simp [hreg u hu]
    rw [this]; cases s.root <;> rfl

/-- The views of two sessions with different objects, put together: the objects `objs` as in `A`, the others as in `B`. -/
def together (objs : List Uid) (A B : Abs) : Abs where
  cls u := if u ∈ objs then A.cls u else B.cls u
  attr u a := if u ∈ objs then A.attr u a else B.attr u a
  link u r x := if u ∈ objs then A.link u r x else B.link u r x

/-- **C70, complete exports.** If the exported objects include all objects they are linked to (for example an export over all relationships) and are
new to the target, the target is afterwards a session like one made with the API: its view is that of the exported objects together with that of
the old ones, every link is there in both directions and no link leads to an unknown object. -/
theorem complete_import {O : Onto} {s t t' : Sess} {A B : Abs} (hA : Refines s A) (hAc : A.Coherent O.inv) (hB : Refines t B)
    (hBc : B.Coherent O.inv) {objs : List Uid} (hreg : ∀ x ∈ objs, x ∈ s.reg) (hi : Imported s.g objs t t')
    (hnew : ∀ x ∈ objs, x ∉ t.reg) (hcl : ∀ u ∈ objs, ∀ r x, A.link u r x → x ∈ objs) :
    Refines t' (together objs A B) ∧ (together objs A B).Coherent O.inv := by
  have hin : ∀ x : Triple, x.s ∈ objs → (x ∈ t'.g ↔ x ∈ s.g) := by
    intro x hx
    rw [hi.created x hx (hnew _ hx)]
    constructor
    · rintro (h | h)
      · exact absurd (subject_registered hB hBc h) (hnew _ hx)
      · exact h
    · exact .inr
  have hout : ∀ x : Triple, x.s ∉ objs → (x ∈ t'.g ↔ x ∈ t.g) := by
    intro x hx
    rw [hi.others x hx]
    constructor
    · rintro (h | ⟨_, _, u, hu, p, h⟩)
      · exact h
      · rcases hA.kinds _ h with ⟨c, _, e⟩ | ⟨a, v, _, e⟩ | ⟨q, y, e, e'⟩
        · cases e
        · cases e
        · simp only at e e'
          subst e
          exact absurd (hcl u hu q x.s ((hA.link _ _ _).1 h)) hx
    · exact .inl
  refine ⟨⟨hi.nodup hB.nodup, ?_, ?_, ?_, ?_, ?_, ?_⟩, ⟨?_, ?_, ?_⟩⟩
  · intro u
    rw [hi.reg]
    simp only [together]
    split
    · rename_i h
      rw [← hA.reg]
      simp [h, hreg u h]
    · rename_i h
      rw [← hB.reg]
      simp [h]
  · intro u c
    simp only [together]
    split
    · rename_i h; rw [hin _ h, hA.type]
    · rename_i h; rw [hout _ h, hB.type]
  · intro u a v
    simp only [together]
    split
    · rename_i h; rw [hin _ h, hA.attr]
    · rename_i h; rw [hout _ h, hB.attr]
  · intro u r x
    simp only [together]
    split
    · rename_i h; rw [hin _ h, hA.link]
    · rename_i h; rw [hout _ h, hB.link]
  · intro x hx
    by_cases h : x.s ∈ objs
    · exact hA.kinds x ((hin x h).1 hx)
    · exact hB.kinds x ((hout x h).1 hx)
  · intro u a
    simp only [together]
    split
    · exact hA.owned u a
    · exact hB.owned u a
  · intro a r b
    simp only [together]
    by_cases ha : a ∈ objs
    · simp only [ha, if_true]
      intro h
      simp only [hcl a ha r b h, if_true]
      exact hAc.sym a r b h
    · simp only [ha, if_false]
      intro h
      have hb : b ∉ objs := fun hb => hnew b hb ((hB.reg b).2 (hBc.dst a r b h))
      simp only [hb, if_false]
      exact hBc.sym a r b h
  · intro a r b
    simp only [together]
    split
    · exact hAc.src a r b
    · exact hBc.src a r b
  · intro a r b
    simp only [together]
    by_cases ha : a ∈ objs
    · simp only [ha, if_true]
      intro h
      simp only [hcl a ha r b h, if_true]
      exact hAc.dst a r b h
    · simp only [ha, if_false]
      intro h
      have hb : b ∉ objs := fun hb => hnew b hb ((hB.reg b).2 (hBc.dst a r b h))
      simp only [hb, if_false]
      exact hBc.dst a r b h

/-- **C70, from one session to another.** The export over all relationships of an object into a session without any of the exported objects: the
call succeeds and the target is afterwards what `complete_import` says, for the views of both sessions. -/
theorem transfer_complete {O : Onto} (hW : O.WF) {s t : Sess} (hs : Reachable O s) (ht : Reachable O t) {enum : Graph → Doc} (he : Enumerates enum)
    (root : Uid) (hroot : root ∈ s.reg) (fuel : Nat) (hf : s.reg.length + 1 ≤ fuel) (hnew : ∀ x, Reaches O s none root x → x ∉ t.reg) :
    ∃ docs objs t' A B, serialize O enum s fuel none none root = some docs ∧ deserialize O docs t = ⟨.ok (some root), t'⟩ ∧
      (∀ x, x ∈ objs ↔ Reaches O s none root x) ∧ Refines s A ∧ Refines t B ∧ Refines t' (together objs A B) ∧
      (together objs A B).Coherent O.inv := by
  obtain ⟨docs, objs, h1, _, _, h4, h5, _, h7⟩ := import_exact hW hs he none none root hroot fuel hf
  obtain ⟨t', k1, k2⟩ := h7 t
  obtain ⟨A, hA, hAc⟩ := reachable_view hW hs
  obtain ⟨B, hB, hBc⟩ := reachable_view hW ht
  have := complete_import hA hAc hB hBc h4 k2 (fun x hx => hnew x ((h5 rfl x).1 hx)) (by
    intro u hu r x hl
    rw [h5 rfl] at hu ⊢
    exact hu.tail ⟨r, (hA.link _ _ _).2 hl, by simp⟩)
  exact ⟨docs, objs, t', A, B, h1, k1, h5 rfl, hA, hB, this.1, this.2⟩

/-! ### Non-vacuity -/

theorem exOnto_wf : exOnto.WF := by
  constructor
  · intro r
    by_cases h1 : r = 1
    · subst h1; rfl
    · by_cases h2 : r = 2
      · subst h2; rfl
      · simp [exOnto, h1, h2]
  · intro r; simp [exOnto]

/-- A city (1) with two citizens (2, 3), who know each other, in a country (4). -/
def cityOps : List Op := [.create 4 5 [], .create 1 5 [(7, 10)], .create 2 5 [(7, 20)], .create 3 5 [(7, 30)], .add 4 [1] (some 1) none,
  .add 1 [2, 3] (some 1) none, .add 2 [3] (some 3) none]

/-- The source session. -/
def src : Sess := (run exOnto {} cityOps).2

/-- Histories in scope lead to reachable states. -/
theorem reachable_run {O : Onto} (ops : List Op) : ∀ s, Reachable O s → AllOk O s ops → Reachable O (run O s ops).2 := by
  induction ops with
  | nil => intro s hs _; exact hs
  | cons op ops ih => intro s hs h; exact ih _ (.step hs op h.1) h.2

theorem src_reachable : Reachable exOnto src := by
  refine reachable_run _ _ .init ?_
  repeat' constructor
  all_goals decide

/-- Documents are enumerated backwards. -/
theorem reverse_enumerates : Enumerates List.reverse := fun _ _ => List.mem_reverse

/-- The export of the city over `hasPart`: three documents; read into a new session, the city is returned, everything is there except the
country. -/
example : ∃ docs, serialize exOnto List.reverse src 10 (some 1) none 1 = some docs ∧ docs.length = 3 ∧
    (deserialize exOnto docs {}).res = .ok (some 1) ∧ (deserialize exOnto docs {}).st.reg = [1, 2, 3] ∧
    (deserialize exOnto docs {}).st.root = some 1 ∧ getAttr exOnto (deserialize exOnto docs {}).st 3 7 = .ok 30 := by
  refine ⟨_, rfl, ?_⟩
  decide +kernel

/-- The hypotheses of `transfer_complete` are met. -/
example : Reachable exOnto src ∧ 1 ∈ src.reg ∧ src.reg.length + 1 ≤ 10 ∧ ∀ x, Reaches exOnto src none 1 x → x ∉ ([] : List Uid) :=
  ⟨src_reachable, by decide, by decide, by simp⟩

/-! ### Findings -/

/-- The export follows `hasPart`, but the documents contain all links: after the import the city is part of a country that the session does not
know, and `get` gives `None` for it. -/
theorem dangling_after_import :
    ∃ docs t', serialize exOnto id src 10 (some 1) none 1 = some docs ∧ deserialize exOnto docs {} = ⟨.ok (some 1), t'⟩ ∧ 4 ∉ t'.reg ∧
      Cuds.get exOnto t' 1 [] (some 2) none = .ok [none] := by
  refine ⟨_, _, rfl, rfl, ?_⟩
  decide +kernel

/-- Removing that link in the new session raises AttributeError, and the object cannot be deleted. -/
theorem imported_object_not_deletable :
    ∃ docs t', serialize exOnto id src 10 (some 1) none 1 = some docs ∧ deserialize exOnto docs {} = ⟨.ok (some 1), t'⟩ ∧
      (delete exOnto t' 1).res = .error .attributeError := by
  refine ⟨_, _, rfl, rfl, ?_⟩
  decide +kernel

/-- Reading an old export into the session it came from restores the exported objects only: here citizen 2 was removed from the city, and is
removed no more in the export of the city alone, so that the link is there in one direction only. -/
theorem old_export_breaks_symmetry :
    ∃ docs t', serialize exOnto id src 10 (some 1) (some 0) 1 = some docs ∧
      deserialize exOnto docs (remove exOnto src 1 [2] none none).st = ⟨.ok (some 1), t'⟩ ∧
      (⟨1, .rel 1, .cuds 2⟩ : Triple) ∈ t'.g ∧ (⟨2, .rel 2, .cuds 1⟩ : Triple) ∉ t'.g := by
  refine ⟨_, _, rfl, rfl, ?_⟩
  decide +kernel

/-- A neighbour that is not exported and has another class in the target gets both classes. -/
theorem second_class_after_import :
    let t := (run exOnto {} [.create 2 6 []]).2
    ∃ docs t', serialize exOnto id src 10 (some 1) (some 0) 1 = some docs ∧ deserialize exOnto docs t = ⟨.ok (some 1), t'⟩ ∧
      oclasses t'.g 2 = [6, 5] := by
  refine ⟨_, _, rfl, rfl, ?_⟩
  decide +kernel

/-- An empty list of documents raises IndexError. -/
theorem empty_list_raises (O : Onto) (s : Sess) : (deserialize O [] s).res = .error .indexError := rfl

/-- `create_from_triples` with its default `fix_neighbors=True` removes the links one relationship after the other, with subrelationships. If a
relationship comes before one of its subrelationships, nothing is left for the latter and RuntimeError is raised, in the other order not: the
outcome depends on the order of a Python set. -/
theorem fix_neighbors_depends_on_order :
    let s := (run exOnto {} [.create 1 5 [], .create 2 5 [], .create 3 5 [], .add 1 [2] (some 0) none, .add 1 [3] (some 1) none]).2
    (createFromTriples exOnto s [⟨1, .type, .cls 5⟩] [] true [0, 1]).res = .error .runtimeError ∧
    (createFromTriples exOnto s [⟨1, .type, .cls 5⟩] [] true [1, 0]).res = .ok (some 1) := by
  decide +kernel

end Osp.Export
