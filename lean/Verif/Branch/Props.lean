import Verif.Branch.Spec
import Verif.Cuds.Props
/-!
# Nested calls of `branch`: theorems (C103)
-/
namespace Osp.Branch
open Osp.Cuds

variable {O : Onto} {d : Uid → Option Rel}

/-! ### building step by step -/

theorem Built.refl (O : Onto) (A : Abs) : Built O A [] [] A :=
  ⟨fun _ h => (nomatch h), fun _ _ => ⟨rfl, fun _ => rfl⟩, fun _ _ _ => by simp⟩

theorem Built.trans {A A1 A2 : Abs} {n1 n2 : List (Uid × Cls × List (Attr × Val))} {l1 l2 : List (Uid × Rel × Uid)} (h1 : Built O A n1 l1 A1) (h2 : Built O A1 n2 l2 A2)
    (hd : ∀ n ∈ n1, n.1 ∉ n2.map (·.1)) : Built O A (n1 ++ n2) (l1 ++ l2) A2 := by
  constructor
  · intro n hn
    rcases List.mem_append.1 hn with h | h
    · obtain ⟨a, b⟩ := h1.new n h
      obtain ⟨a', b'⟩ := h2.rest n.1 (hd n h)
      exact ⟨a'.trans a, fun x => (b' x).trans (b x)⟩
    · exact h2.new n h
  · intro u hu
    rw [List.map_append, List.mem_append, not_or] at hu
    obtain ⟨a, b⟩ := h1.rest u hu.1
    obtain ⟨a', b'⟩ := h2.rest u hu.2
    exact ⟨a'.trans a, fun x => (b' x).trans (b x)⟩
  · intro a q b
    rw [h2.link, h1.link]
    constructor
    · rintro ((h | h | ⟨l, h, e⟩) | h | ⟨l, h, e⟩)
      · exact .inl h
      · exact .inr (.inl (List.mem_append_left _ h))
      · exact .inr (.inr ⟨l, List.mem_append_left _ h, e⟩)
      · exact .inr (.inl (List.mem_append_right _ h))
      · exact .inr (.inr ⟨l, List.mem_append_right _ h, e⟩)
    · rintro (h | h | ⟨l, h, e⟩)
      · exact .inl (.inl h)
      · rcases List.mem_append.1 h with h | h
        · exact .inl (.inr (.inl h))
        · exact .inr (.inl h)
      · rcases List.mem_append.1 h with h | h
        · exact .inl (.inr (.inr ⟨l, h, e⟩))
        · exact .inr (.inr ⟨l, h, e⟩)

theorem noneTwice_append {A A1 : Abs} {n1 : List (Uid × Cls × List (Attr × Val))} {l1 l2 : List (Uid × Rel × Uid)} (h1 : Built O A n1 l1 A1) :
    NoneTwice O A (l1 ++ l2) ↔ NoneTwice O A l1 ∧ NoneTwice O A1 l2 := by
  unfold NoneTwice
  rw [List.pairwise_append]
  constructor
  · rintro ⟨a, b, c, e⟩
    refine ⟨⟨fun l h => a l (List.mem_append_left _ h), b⟩, fun m hm => ?_, c⟩
    rw [h1.link]
    rintro (h | h | ⟨l, h, e'⟩)
    · exact a m (List.mem_append_right _ hm) h
    · exact (e _ h m hm).1 rfl
    · exact (e l h m hm).2 e'
  · rintro ⟨⟨a, b⟩, c, e⟩
    refine ⟨fun l h => ?_, b, e, fun l hl m hm => ⟨fun h => c m hm ?_, fun h => c m hm ?_⟩⟩
    · rcases List.mem_append.1 h with h | h
      · exact a l h
      · exact fun hl => c l h ((h1.link _ _ _).2 (.inl hl))
    · rw [h1.link, h]; exact .inr (.inl hl)
    · rw [h1.link]; exact .inr (.inr ⟨l, hl, h⟩)

theorem Fits.left {A : Abs} {o1 o2 : List Uid} {n1 n2 : List (Uid × Cls × List (Attr × Val))} (h : Fits O A (o1 ++ o2) (n1 ++ n2)) : Fits O A o1 n1 :=
  ⟨fun u hu => h.old u (List.mem_append_left _ hu), by have := h.uids; rw [List.map_append, List.nodup_append] at this; exact this.1, fun n hn => h.fresh n (List.mem_append_left _ hn)⟩

theorem Fits.apart {A : Abs} {o1 o2 : List Uid} {n1 n2 : List (Uid × Cls × List (Attr × Val))} (h : Fits O A (o1 ++ o2) (n1 ++ n2)) : ∀ n ∈ n1, n.1 ∉ n2.map (·.1) := by
  intro n hn hm
  have := h.uids
  rw [List.map_append, List.nodup_append] at this
  exact this.2.2 _ (List.mem_map_of_mem hn) _ hm rfl

theorem built_cls {A A1 : Abs} {n1 : List (Uid × Cls × List (Attr × Val))} {l1 : List (Uid × Rel × Uid)} (hb : Built O A n1 l1 A1) {u : Uid} (hu : A.cls u ≠ none) : A1.cls u ≠ none := by
  by_cases hm : u ∈ n1.map (·.1)
  · obtain ⟨n, hn, rfl⟩ := List.mem_map.1 hm
    rw [(hb.new n hn).1]
    simp
  · rw [(hb.rest u hm).1]
    exact hu

theorem Fits.right {A A1 : Abs} {o1 o2 : List Uid} {n1 n2 : List (Uid × Cls × List (Attr × Val))} {l1 : List (Uid × Rel × Uid)} (h : Fits O A (o1 ++ o2) (n1 ++ n2)) (hb : Built O A n1 l1 A1) :
    Fits O A1 o2 n2 := by
  refine ⟨fun u hu => built_cls hb (h.old u (List.mem_append_right _ hu)), ?_, fun n hn => ?_⟩
  · have := h.uids
    rw [List.map_append, List.nodup_append] at this
    exact this.2.1
  · obtain ⟨a, b, c⟩ := h.fresh n (List.mem_append_right _ hn)
    refine ⟨a, ?_, c⟩
    rw [(hb.rest n.1 ?_).1]
    · exact b
    · intro hm
      obtain ⟨m, hm, e⟩ := List.mem_map.1 hm
      exact h.apart m hm (e ▸ List.mem_map_of_mem hn)

/-! ### outcomes -/

/-- Proof device; nothing in /repo: what an evaluation leaves. -/
def Done {α : Type} (O : Onto) (A : Abs) (fs : List (Uid × Cls × List (Attr × Val))) (ks : List (Uid × Rel × Uid)) (related : Prop) (v : α) (o : Out α) : Prop :=
  ∃ A' ns ls, Refines o.st A' ∧ A'.Coherent O.inv ∧ Built O A ns ls A' ∧
    ((o.res = .ok v ∧ ns = fs ∧ ls = ks ∧ related ∧ NoneTwice O A ks) ∨
     (o.res = .error .valueError ∧ ns <+: fs ∧ ∃ l rest, ks = ls ++ l :: rest ∧ A'.link l.1 l.2.1 l.2.2) ∨
     (o.res = .error .typeError ∧ ns <+: fs ∧ ls <+: ks ∧ ¬ related))

theorem done_fail {α β : Type} {A : Abs} {f1 f2 : List (Uid × Cls × List (Attr × Val))} {k1 k2 : List (Uid × Rel × Uid)} {r1 r2 : Prop} {v : α} {w : β} {s : Sess} {x : PyErr}
    (h : Done O A f1 k1 r1 v ⟨.error x, s⟩) : Done O A (f1 ++ f2) (k1 ++ k2) (r1 ∧ r2) w ⟨.error x, s⟩ := by
  obtain ⟨A', ns, ls, a, b, c, h | ⟨e, p, l, rest, q, t⟩ | ⟨e, p, q, t⟩⟩ := h
  · exact absurd h.1 (by simp)
  · cases e
    exact ⟨A', ns, ls, a, b, c, .inr (.inl ⟨rfl, p.trans (List.prefix_append _ _), l, rest ++ k2, by rw [q]; simp, t⟩)⟩
  · cases e
    exact ⟨A', ns, ls, a, b, c, .inr (.inr ⟨rfl, p.trans (List.prefix_append _ _), q.trans (List.prefix_append _ _), fun h => t h.1⟩)⟩

theorem done_seq {α : Type} {A A1 : Abs} {f1 f2 : List (Uid × Cls × List (Attr × Val))} {k1 k2 : List (Uid × Rel × Uid)} {r1 r2 : Prop} {v : α} {o : Out α}
    (hb : Built O A f1 k1 A1) (hn : NoneTwice O A k1) (hr : r1) (hd : ∀ n ∈ f1, n.1 ∉ f2.map (·.1)) (h : Done O A1 f2 k2 r2 v o) : Done O A (f1 ++ f2) (k1 ++ k2) (r1 ∧ r2) v o := by
  obtain ⟨A', ns, ls, a, b, c, h⟩ := h
  have hp : ns <+: f2 := by
    rcases h with h | h | h
    · rw [h.2.1]; exact List.prefix_refl _
    · exact h.2.1
    · exact h.2.1
  have hb' : Built O A (f1 ++ ns) (k1 ++ ls) A' := hb.trans c (fun n hn' hm => hd n hn' ((hp.map _).subset hm))
  refine ⟨A', f1 ++ ns, k1 ++ ls, a, b, hb', ?_⟩
  rcases h with ⟨e, p, q, t, u⟩ | ⟨e, p, l, rest, q, t⟩ | ⟨e, p, q, t⟩
  · exact .inl ⟨e, by rw [p], by rw [q], ⟨hr, t⟩, (noneTwice_append hb).2 ⟨hn, u⟩⟩
  · exact .inr (.inl ⟨e, (List.prefix_append_right_inj _).2 p, l, rest, by rw [q]; simp, t⟩)
  · exact .inr (.inr ⟨e, (List.prefix_append_right_inj _).2 p, (List.prefix_append_right_inj _).2 q, fun h => t h.2⟩)

theorem done_new {s : Sess} {A : Abs} (h : Refines s A) (hco : A.Coherent O.inv) (u : Uid) (c : Cls) (vals : List (Attr × Val)) (hf : Fits O A [] [(u, c, vals)]) :
    Done O A [(u, c, vals)] [] True u (eval O d s (.new u c vals)) := by
  obtain ⟨h0, hn, hv, -⟩ := hf.fresh _ List.mem_cons_self
  obtain ⟨k1, k2⟩ := create_sim h u c vals (fun hm => (h.reg u).1 hm hn) h0 hv
  have he : eval O d s (.new u c vals) = ⟨.ok u, (create s u c vals).st⟩ := by
    simp only [eval]
    cases hc : create s u c vals with
    | mk r st => rw [hc] at k1; simp only at k1; subst k1; rfl
  rw [he]
  refine ⟨_, [(u, c, vals)], [], k2, coherent_create hco u c vals, ⟨?_, ?_, ?_⟩, .inl ⟨rfl, rfl, rfl, trivial, by simp [NoneTwice]⟩⟩
  · intro n hn
    rw [List.mem_singleton] at hn
    subst hn
    exact ⟨if_pos rfl, fun a => if_pos rfl⟩
  · intro v hv
    have : v ≠ u := by simpa using hv
    exact ⟨if_neg this, fun a => if_neg this⟩
  · intro a q b
    simp [Abs.create]

theorem done_call (hW : O.WF) {s : Sess} {A : Abs} (h : Refines s A) (hco : A.Coherent O.inv) (u : Uid) (xs : List Uid) (rel : Option Rel) (hu : A.cls u ≠ none) (hx : ∀ x ∈ xs, A.cls x ≠ none) :
    Done O A [] (match rel.or (d u) with | none => [] | some r => xs.map fun x => (u, r, x)) (rel.or (d u) ≠ none) u (branchCall O d s u xs rel) := by
  unfold branchCall
  cases hr : rel.or (d u) with
  | none =>
    have : add O s u xs rel (d u) = ⟨.error .typeError, s⟩ := by simp only [add, hr]
    rw [this]
    exact ⟨A, [], [], h, hco, Built.refl O A, .inr (.inr ⟨rfl, List.prefix_refl _, List.prefix_refl _, by simp⟩)⟩
  | some r =>
    obtain ⟨pre, post, hp, h1, h2, h3, h4⟩ := addLoop_sim (O := O) u r xs s A h
    have ha : add O s u xs rel (d u) = ⟨(addLoop O u r xs s.g).1, { s with g := (addLoop O u r xs s.g).2 }⟩ := by simp only [add, hr]
    have hb : Built O A [] (pre.map fun x => (u, r, x)) (A.connect O.inv u r pre) := by
      refine ⟨fun _ h => (nomatch h), fun _ _ => ⟨rfl, fun _ => rfl⟩, fun a q b => ?_⟩
      show A.link a q b ∨ (a = u ∧ q = r ∧ b ∈ pre) ∨ (b = u ∧ q = O.inv r ∧ a ∈ pre) ↔ _
      simp only [List.mem_map, flip, Prod.mk.injEq]
      constructor
      · rintro (h | ⟨rfl, rfl, h⟩ | ⟨rfl, rfl, h⟩)
        · exact .inl h
        · exact .inr (.inl ⟨b, h, rfl, rfl, rfl⟩)
        · exact .inr (.inr ⟨_, ⟨a, h, rfl⟩, rfl, rfl, rfl⟩)
      · rintro (h | ⟨x, h, rfl, rfl, rfl⟩ | ⟨l, ⟨x, h, rfl⟩, rfl, rfl, rfl⟩)
        · exact .inl h
        · exact .inr (.inl ⟨rfl, rfl, h⟩)
        · exact .inr (.inr ⟨rfl, rfl, h⟩)
    have hc : (A.connect O.inv u r pre).Coherent O.inv := coherent_connect hW.inv_inv hco u r pre hu (fun x hm => hx x (by rw [hp]; exact List.mem_append_left _ hm))
    rw [ha]
    rcases h4 with ⟨e, hpost⟩ | ⟨e, x, post', hpost, hl⟩
    · rw [e]
      subst hpost
      rw [List.append_nil] at hp
      subst hp
      refine ⟨_, [], xs.map fun x => (u, r, x), h1, hc, hb, .inl ⟨rfl, rfl, rfl, by simp, ?_, ?_⟩⟩
      · intro l hl
        obtain ⟨x, hm, rfl⟩ := List.mem_map.1 hl
        exact h3 x hm
      · rw [List.pairwise_map]
        refine h2.imp fun {a b} hne => ⟨fun e => hne ?_, fun e => hne ?_⟩
        · simp only [Prod.mk.injEq] at e; exact e.2.2.symm
        · simp only [flip, Prod.mk.injEq] at e; exact e.1.symm.trans e.2.2.symm
    · rw [e]
      refine ⟨_, [], pre.map fun x => (u, r, x), h1, hc, hb, .inr (.inl ⟨rfl, List.prefix_refl _, (u, r, x), post'.map fun x => (u, r, x), ?_, ?_⟩)⟩
      · rw [hp, hpost]; simp
      · rcases hl with h | h
        · exact .inl h
        · exact .inr (.inl ⟨rfl, rfl, h⟩)

/-! ### expressions -/

mutual
theorem head_known {A : Abs} (O : Onto) {ns : List (Uid × Cls × List (Attr × Val))} {ls : List (Uid × Rel × Uid)} {A' : Abs} : ∀ (e : Expr), (∀ u ∈ old e, A.cls u ≠ none) → (∀ n ∈ fresh e, n ∈ ns) →
    Built O A ns ls A' → A'.cls (head e) ≠ none
  | .obj u, h, _, hb => built_cls hb (h u List.mem_cons_self)
  | .new u c vals, _, h, hb => by
    show A'.cls u ≠ none
    rw [(hb.new (u, c, vals) (h _ List.mem_cons_self)).1]
    simp
  | .branch e _ _, h, h', hb => head_known O e (fun u hu => h u (List.mem_append_left _ hu)) (fun n hn => h' n (List.mem_append_left _ hn)) hb
theorem heads_known {A : Abs} (O : Onto) {ns : List (Uid × Cls × List (Attr × Val))} {ls : List (Uid × Rel × Uid)} {A' : Abs} : ∀ (es : Exprs), (∀ u ∈ olds es, A.cls u ≠ none) → (∀ n ∈ freshs es, n ∈ ns) →
    Built O A ns ls A' → ∀ x ∈ heads es, A'.cls x ≠ none
  | .nil, _, _, _ => fun _ h => (nomatch h)
  | .cons e es, h, h', hb => by
    intro x hx
    rcases List.mem_cons.1 hx with rfl | hx
    · exact head_known O e (fun u hu => h u (List.mem_append_left _ hu)) (fun n hn => h' n (List.mem_append_left _ hn)) hb
    · exact heads_known O es (fun u hu => h u (List.mem_append_right _ hu)) (fun n hn => h' n (List.mem_append_right _ hn)) hb x hx
end

mutual
theorem eval_done (hW : O.WF) : ∀ (e : Expr) {s : Sess} {A : Abs}, Refines s A → A.Coherent O.inv → Fits O A (old e) (fresh e) → Done O A (fresh e) (links d e) (Related d e) (head e) (eval O d s e)
  | .obj u, s, A, h, hco, _ => ⟨A, [], [], h, hco, Built.refl O A, .inl ⟨rfl, rfl, rfl, trivial, by simp [NoneTwice, links]⟩⟩
  | .new u c vals, s, A, h, hco, hf => done_new h hco u c vals hf
  | .branch e args rel, s, A, h, hco, hf => by
    have h1 := eval_done hW e h hco hf.left
    show Done O A (fresh e ++ freshs args) (links d e ++ linkss d args ++ _) (Related d e ∧ Relateds d args ∧ rel.or (d (head e)) ≠ none) (head e) _
    rw [List.append_assoc]
    cases he : eval O d s e with
    | mk r s1 =>
    rw [he] at h1
    cases r with
    | error x =>
      have : eval O d s (.branch e args rel) = ⟨.error x, s1⟩ := by simp only [eval, he]
      rw [this]
      exact done_fail h1
    | ok u =>
      obtain ⟨A1, ns, ls, a1, a2, a3, ⟨b1, rfl, rfl, b4, b5⟩ | ⟨b1, -⟩ | ⟨b1, -⟩⟩ := h1
      · cases b1
        refine done_seq a3 b5 b4 hf.apart ?_
        have h2 := evals_done hW args a1 a2 (hf.right a3)
        cases hes : evals O d s1 args with
        | mk r s2 =>
        rw [hes] at h2
        rw [← List.append_nil (freshs args)]
        cases r with
        | error x =>
          have : eval O d s (.branch e args rel) = ⟨.error x, s2⟩ := by simp only [eval, he, hes]
          rw [this]
          exact done_fail h2
        | ok us =>
          obtain ⟨A2, ns, ls, c1, c2, c3, ⟨d1, rfl, rfl, d4, d5⟩ | ⟨d1, -⟩ | ⟨d1, -⟩⟩ := h2
          · cases d1
            have : eval O d s (.branch e args rel) = branchCall O d s2 (head e) (heads args) rel := by simp only [eval, he, hes]
            rw [this]
            refine done_seq c3 d5 d4 (fun _ _ => by simp) ?_
            have hk : A2.cls (head e) ≠ none := built_cls c3 (head_known O e hf.left.old (fun _ h => h) a3)
            exact done_call hW c1 c2 (head e) (heads args) rel hk (heads_known O args (hf.right a3).old (fun _ h => h) c3)
          · cases d1
          · cases d1
      · cases b1
      · cases b1
theorem evals_done (hW : O.WF) : ∀ (es : Exprs) {s : Sess} {A : Abs}, Refines s A → A.Coherent O.inv → Fits O A (olds es) (freshs es) →
    Done O A (freshs es) (linkss d es) (Relateds d es) (heads es) (evals O d s es)
  | .nil, s, A, h, hco, _ => ⟨A, [], [], h, hco, Built.refl O A, .inl ⟨rfl, rfl, rfl, trivial, by simp [NoneTwice, linkss]⟩⟩
  | .cons e es, s, A, h, hco, hf => by
    have h1 := eval_done hW e h hco hf.left
    show Done O A (fresh e ++ freshs es) (links d e ++ linkss d es) (Related d e ∧ Relateds d es) (head e :: heads es) _
    cases he : eval O d s e with
    | mk r s1 =>
    rw [he] at h1
    cases r with
    | error x =>
      have : evals O d s (.cons e es) = ⟨.error x, s1⟩ := by simp only [evals, he]
      rw [this]
      exact done_fail h1
    | ok u =>
      obtain ⟨A1, ns, ls, a1, a2, a3, ⟨b1, rfl, rfl, b4, b5⟩ | ⟨b1, -⟩ | ⟨b1, -⟩⟩ := h1
      · cases b1
        refine done_seq a3 b5 b4 hf.apart ?_
        have h2 := evals_done hW es a1 a2 (hf.right a3)
        obtain ⟨A2, ns, ls, c1, c2, c3, c4⟩ := h2
        cases hes : evals O d s1 es with
        | mk r s2 =>
        rw [hes] at c1 c4
        cases r with
        | error x =>
          have : evals O d s (.cons e es) = ⟨.error x, s2⟩ := by simp only [evals, he, hes]
          rw [this]
          refine ⟨A2, ns, ls, c1, c2, c3, ?_⟩
          rcases c4 with ⟨q, -⟩ | ⟨q, c5⟩ | ⟨q, c5⟩
          · cases q
          · cases q; exact .inr (.inl ⟨rfl, c5⟩)
          · cases q; exact .inr (.inr ⟨rfl, c5⟩)
        | ok us =>
          rcases c4 with ⟨q, c5⟩ | ⟨q, -⟩ | ⟨q, -⟩
          · cases q
            have : evals O d s (.cons e es) = ⟨.ok (head e :: heads es), s2⟩ := by simp only [evals, he, hes]
            rw [this]
            exact ⟨A2, ns, ls, c1, c2, c3, .inl ⟨rfl, c5⟩⟩
          · cases q
          · cases q
      · cases b1
      · cases b1
end

/-- **C103.** A nested expression either succeeds, gives the object it stands for, and the session then has exactly the new objects and the links asked for, in both directions, besides what it had; or it raises: a
ValueError when the next link is there already, a TypeError only if some call has no relationship. Then an initial part of the objects and links is there, nothing else. -/
theorem build (hW : O.WF) (d : Uid → Option Rel) {s : Sess} {A : Abs} (h : Refines s A) (hco : A.Coherent O.inv) (e : Expr) (hf : Fits O A (old e) (fresh e)) :
    ∃ A' ns ls, Refines (eval O d s e).st A' ∧ A'.Coherent O.inv ∧ Built O A ns ls A' ∧
      (((eval O d s e).res = .ok (head e) ∧ ns = fresh e ∧ ls = links d e) ∨
       ((eval O d s e).res = .error .valueError ∧ ns <+: fresh e ∧ ∃ l rest, links d e = ls ++ l :: rest ∧ A'.link l.1 l.2.1 l.2.2) ∨
       ((eval O d s e).res = .error .typeError ∧ ns <+: fresh e ∧ ls <+: links d e ∧ ¬ Related d e)) := by
  obtain ⟨A', ns, ls, a, b, c, ⟨e1, e2, e3, -⟩ | h | h⟩ := eval_done (d := d) hW e h hco hf
  · exact ⟨A', ns, ls, a, b, c, .inl ⟨e1, e2, e3⟩⟩
  · exact ⟨A', ns, ls, a, b, c, .inr (.inl h)⟩
  · exact ⟨A', ns, ls, a, b, c, .inr (.inr h)⟩

/-- **C103.** It succeeds exactly if every call has a relationship and no link is asked for twice, in whichever direction, or is there from the start. -/
theorem build_iff (hW : O.WF) (d : Uid → Option Rel) {s : Sess} {A : Abs} (h : Refines s A) (hco : A.Coherent O.inv) (e : Expr) (hf : Fits O A (old e) (fresh e)) :
    (eval O d s e).res = .ok (head e) ↔ Related d e ∧ NoneTwice O A (links d e) := by
  obtain ⟨A', ns, ls, a, b, c, ⟨e1, -, -, e4, e5⟩ | ⟨e1, -, l, rest, e3, e4⟩ | ⟨e1, -, -, e4⟩⟩ := eval_done (d := d) hW e h hco hf
  · exact ⟨fun _ => ⟨e4, e5⟩, fun _ => e1⟩
  · rw [e1]
    refine ⟨fun h => by simp at h, fun h => ?_⟩
    rw [e3] at h
    exact absurd e4 (((noneTwice_append c).1 h.2).2.1 l List.mem_cons_self)
  · rw [e1]
    exact ⟨fun h => by simp at h, fun h => absurd h.1 e4⟩

/-! ### trees -/

theorem once_split {o1 o2 : List Uid} {n1 n2 : List (Uid × Cls × List (Attr × Val))} (h : Once (o1 ++ o2) (n1 ++ n2)) :
    Once o1 n1 ∧ Once o2 n2 ∧ ∀ u, u ∈ o1 ++ n1.map (·.1) → u ∉ o2 ++ n2.map (·.1) := by
  unfold Once at *
  simp only [List.map_append, List.nodup_append, List.mem_append] at *
  obtain ⟨⟨a1, a2, a3⟩, ⟨b1, b2, b3⟩, c⟩ := h
  refine ⟨⟨a1, b1, fun x hx y hy => c x (.inl hx) y (.inl hy)⟩, ⟨a2, b2, fun x hx y hy => c x (.inr hx) y (.inr hy)⟩, ?_⟩
  rintro u (h | h) (k | k)
  · exact a3 u h u k rfl
  · exact c u (.inl h) u (.inr k) rfl
  · exact c u (.inr k) u (.inl h) rfl
  · exact b3 u h u k rfl

theorem occ_left {o1 o2 : List Uid} {n1 n2 : List (Uid × Cls × List (Attr × Val))} {u : Uid} (h : u ∈ o1 ++ n1.map (·.1)) : u ∈ (o1 ++ o2) ++ (n1 ++ n2).map (·.1) := by
  simp only [List.map_append, List.mem_append] at *
  rcases h with h | h
  · exact .inl (.inl h)
  · exact .inr (.inl h)

theorem occ_right {o1 o2 : List Uid} {n1 n2 : List (Uid × Cls × List (Attr × Val))} {u : Uid} (h : u ∈ o2 ++ n2.map (·.1)) : u ∈ (o1 ++ o2) ++ (n1 ++ n2).map (·.1) := by
  simp only [List.map_append, List.mem_append] at *
  rcases h with h | h
  · exact .inl (.inr h)
  · exact .inr (.inr h)

mutual
theorem head_occ : ∀ e : Expr, head e ∈ old e ++ (fresh e).map (·.1)
  | .obj _ => List.mem_cons_self
  | .new _ _ _ => List.mem_cons_self
  | .branch e _ _ => occ_left (head_occ e)
theorem heads_occ : ∀ (es : Exprs) (x : Uid), x ∈ heads es → x ∈ olds es ++ (freshs es).map (·.1)
  | .nil, _, h => (nomatch h)
  | .cons e es, x, h => by
    rcases List.mem_cons.1 h with rfl | h
    · exact occ_left (head_occ e)
    · exact occ_right (heads_occ es x h)
end

theorem heads_nodup : ∀ es : Exprs, Once (olds es) (freshs es) → (heads es).Nodup
  | .nil, _ => List.nodup_nil
  | .cons e es, h => by
    obtain ⟨_, h2, h3⟩ := once_split h
    exact List.nodup_cons.2 ⟨fun hm => h3 _ (head_occ e) (heads_occ es _ hm), heads_nodup es h2⟩

theorem mem_call {u : Uid} {q : Option Rel} {xs : List Uid} {l : Uid × Rel × Uid} (h : l ∈ (match q with | none => [] | some r => xs.map fun x => (u, r, x))) : l.1 = u ∧ l.2.2 ∈ xs ∧ q = some l.2.1 := by
  cases q with
  | none => cases h
  | some r =>
    obtain ⟨x, hx, rfl⟩ := List.mem_map.1 h
    exact ⟨rfl, hx, rfl⟩

mutual
theorem links_occ (d : Uid → Option Rel) : ∀ (e : Expr) (l : Uid × Rel × Uid), l ∈ links d e → l.1 ∈ old e ++ (fresh e).map (·.1) ∧ l.2.2 ∈ old e ++ (fresh e).map (·.1)
  | .obj _, _, h => (nomatch h)
  | .new _ _ _, _, h => (nomatch h)
  | .branch e args rel, l, h => by
    rcases List.mem_append.1 h with h | h
    · rcases List.mem_append.1 h with h | h
      · exact ⟨occ_left (links_occ d e l h).1, occ_left (links_occ d e l h).2⟩
      · exact ⟨occ_right (linkss_occ d args l h).1, occ_right (linkss_occ d args l h).2⟩
    · obtain ⟨h1, h2, -⟩ := mem_call h
      rw [h1]
      exact ⟨occ_left (head_occ e), occ_right (heads_occ args _ h2)⟩
theorem linkss_occ (d : Uid → Option Rel) : ∀ (es : Exprs) (l : Uid × Rel × Uid), l ∈ linkss d es → l.1 ∈ olds es ++ (freshs es).map (·.1) ∧ l.2.2 ∈ olds es ++ (freshs es).map (·.1)
  | .nil, _, h => (nomatch h)
  | .cons e es, l, h => by
    rcases List.mem_append.1 h with h | h
    · exact ⟨occ_left (links_occ d e l h).1, occ_left (links_occ d e l h).2⟩
    · exact ⟨occ_right (linkss_occ d es l h).1, occ_right (linkss_occ d es l h).2⟩
end

mutual
theorem links_once (O : Onto) (d : Uid → Option Rel) : ∀ e : Expr, Once (old e) (fresh e) → (links d e).Pairwise (fun l m => m ≠ l ∧ m ≠ flip O l)
  | .obj _, _ => List.Pairwise.nil
  | .new _ _ _, _ => List.Pairwise.nil
  | .branch e args rel, h => by
    obtain ⟨h1, h2, h3⟩ := once_split h
    show (links d e ++ linkss d args ++ _).Pairwise _
    rw [List.pairwise_append, List.pairwise_append]
    refine ⟨⟨links_once O d e h1, linkss_once O d args h2, fun l hl m hm => ?_⟩, ?_, fun l hl m hm => ?_⟩
    · have a := links_occ d e l hl
      have b := linkss_occ d args m hm
      exact ⟨fun e => h3 _ a.1 (by rw [← e]; exact b.1), fun e => h3 _ a.1 (by have := congrArg (·.2.2) e; simp only [flip] at this; rw [← this]; exact b.2)⟩
    · cases hr : rel.or (d (head e)) with
      | none => exact List.Pairwise.nil
      | some r =>
        dsimp only
        rw [List.pairwise_map]
        refine (heads_nodup args h2).imp fun {a b} hne => ⟨fun e => hne ?_, fun e => hne ?_⟩
        · simp only [Prod.mk.injEq] at e; exact e.2.2.symm
        · simp only [flip, Prod.mk.injEq] at e; exact e.1.symm.trans e.2.2.symm
    · obtain ⟨c1, c2, -⟩ := mem_call hm
      have ho := heads_occ args _ c2
      rcases List.mem_append.1 hl with hl | hl
      · have a := links_occ d e l hl
        refine ⟨fun q => h3 _ a.2 (by rw [← q]; exact ho), fun q => h3 _ a.1 ?_⟩
        have := congrArg (·.2.2) q
        simp only [flip] at this
        rw [← this]; exact ho
      · have a := linkss_occ d args l hl
        refine ⟨fun q => h3 _ (head_occ e) ?_, fun q => h3 _ (head_occ e) ?_⟩
        · rw [← c1, q]; exact a.1
        · have := congrArg (·.1) q
          simp only [flip] at this
          rw [← c1, this]; exact a.2
theorem linkss_once (O : Onto) (d : Uid → Option Rel) : ∀ es : Exprs, Once (olds es) (freshs es) → (linkss d es).Pairwise (fun l m => m ≠ l ∧ m ≠ flip O l)
  | .nil, _ => List.Pairwise.nil
  | .cons e es, h => by
    obtain ⟨h1, h2, h3⟩ := once_split h
    show (links d e ++ linkss d es).Pairwise _
    rw [List.pairwise_append]
    refine ⟨links_once O d e h1, linkss_once O d es h2, fun l hl m hm => ?_⟩
    have a := links_occ d e l hl
    have b := linkss_occ d es m hm
    exact ⟨fun e => h3 _ a.1 (by rw [← e]; exact b.1), fun e => h3 _ a.1 (by have := congrArg (·.2.2) e; simp only [flip] at this; rw [← this]; exact b.2)⟩
end

/-- **C103.** An expression in which each object occurs once and whose old objects are not linked to each other always succeeds, if every call has a relationship, and builds exactly the tree it shows. -/
theorem tree (hW : O.WF) (d : Uid → Option Rel) {s : Sess} {A : Abs} (h : Refines s A) (hco : A.Coherent O.inv) (e : Expr) (hf : Fits O A (old e) (fresh e)) (ho : Once (old e) (fresh e)) (hr : Related d e)
    (hl : ∀ u ∈ old e, ∀ x ∈ old e, ∀ r, ¬ A.link u r x) :
    (eval O d s e).res = .ok (head e) ∧ ∃ A', Refines (eval O d s e).st A' ∧ A'.Coherent O.inv ∧ Built O A (fresh e) (links d e) A' := by
  have hok : (eval O d s e).res = .ok (head e) := by
    rw [build_iff hW d h hco e hf]
    refine ⟨hr, fun l hm hk => ?_, links_once O d e ho⟩
    obtain ⟨a, b⟩ := links_occ d e l hm
    have nf : ∀ u, A.cls u ≠ none → u ∉ (fresh e).map (·.1) := by
      intro u hu hm
      obtain ⟨n, hn, rfl⟩ := List.mem_map.1 hm
      exact hu (hf.fresh n hn).2.1
    have c1 := (List.mem_append.1 a).resolve_right (nf _ (hco.src _ _ _ hk))
    have c2 := (List.mem_append.1 b).resolve_right (nf _ (hco.dst _ _ _ hk))
    exact hl _ c1 _ c2 _ hk
  obtain ⟨A', ns, ls, a, b, c, ⟨_, rfl, rfl⟩ | ⟨e1, -⟩ | ⟨e1, -⟩⟩ := build hW d h hco e hf
  · exact ⟨hok, A', a, b, c⟩
  · rw [hok] at e1; cases e1
  · rw [hok] at e1; cases e1

end Osp.Branch
