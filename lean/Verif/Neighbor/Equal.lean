import Verif.Neighbor.Props
/-!
# Items, values and equality of the dictionaries of neighbours (C87)
-/
namespace Osp.Neighbor
open Osp.Cuds

theorem sub_of_length {α : Type} [DecidableEq α] : ∀ (a b : List α), a.Nodup → (∀ x ∈ a, x ∈ b) → b.length ≤ a.length → ∀ x ∈ b, x ∈ a
  | [], b, _, _, hl, x, hx => by
    cases b with
    | nil => cases hx
    | cons y b => simp at hl
  | y :: a, b, hn, hs, hl, x, hx => by
    have hy := hs y (List.mem_cons_self ..)
    obtain ⟨hya, hna⟩ := List.nodup_cons.1 hn
    by_cases e : x = y
    · exact e ▸ List.mem_cons_self ..
    · refine List.mem_cons_of_mem _ (sub_of_length a (b.erase y) hna ?_ ?_ x ((List.mem_erase_of_ne e).2 hx))
      · intro z hz
        exact (List.mem_erase_of_ne (fun (e : z = y) => hya (e ▸ hz))).2 (hs z (List.mem_cons_of_mem _ hz))
      · rw [List.length_erase_of_mem hy]
        simp only [List.length_cons] at hl
        omega

theorem lookup_mem {κ υ : Type} [DecidableEq κ] : ∀ {l : List (κ × υ)} {k : κ} {v : υ}, l.lookup k = some v → (k, v) ∈ l
  | (k', v') :: l, k, v, h => by
    rw [List.lookup_cons] at h
    by_cases e : k = k'
    · subst e; rw [beq_self_eq_true] at h; cases h; exact List.mem_cons_self ..
    · rw [beq_eq_false_iff_ne.2 e] at h; exact List.mem_cons_of_mem _ (lookup_mem h)

theorem lookup_of_mem {κ υ : Type} [DecidableEq κ] : ∀ {l : List (κ × υ)} {k : κ} {v : υ}, (l.map (·.1)).Nodup → (k, v) ∈ l → l.lookup k = some v
  | (k', v') :: l, k, v, hn, h => by
    rw [List.map_cons, List.nodup_cons] at hn
    rw [List.lookup_cons]
    rcases List.mem_cons.1 h with h | h
    · cases h; rw [beq_self_eq_true]
    · have e : k ≠ k' := fun e => hn.1 (List.mem_map.2 ⟨_, h, e⟩)
      rw [beq_eq_false_iff_ne.2 e]
      exact lookup_of_mem hn.2 h

theorem nodup_of_keys {κ υ : Type} : ∀ {l : List (κ × υ)}, (l.map (·.1)).Nodup → l.Nodup
  | [], _ => List.nodup_nil
  | e :: l, h => by
    rw [List.map_cons, List.nodup_cons] at h
    exact List.nodup_cons.2 ⟨fun hm => h.1 (List.mem_map.2 ⟨_, hm, rfl⟩), nodup_of_keys h.2⟩

/-- Two dicts are equal exactly if they have the same items. -/
theorem dictEq_iff {κ υ : Type} [DecidableEq κ] [DecidableEq υ] {a b : List (κ × υ)} (ha : (a.map (·.1)).Nodup) (hb : (b.map (·.1)).Nodup) :
    dictEq a b = true ↔ ∀ k v, (k, v) ∈ a ↔ (k, v) ∈ b := by
  unfold dictEq
  rw [Bool.and_eq_true, List.all_eq_true, beq_iff_eq]
  constructor
  · rintro ⟨hl, hs⟩ k v
    have hsub : ∀ x ∈ a, x ∈ b := fun x hx => lookup_mem (by simpa using hs x hx)
    exact ⟨hsub _, sub_of_length a b (nodup_of_keys ha) hsub (by omega) _⟩
  · intro h
    refine ⟨?_, fun e he => by rw [lookup_of_mem hb ((h e.1 e.2).1 he)]; simp⟩
    have h1 := (List.perm_ext_iff_of_nodup (nodup_of_keys ha) (nodup_of_keys hb)).2 (fun e => h e.1 e.2)
    exact h1.length_eq

theorem read_twice (sess : Bool) (me : Uid) (st : St) : (notifyRead sess me st).seen sess = st.seen sess := by
  rw [fresh_seen (fresh_read sess me st), read_g]

/-- `n` readings. -/
def reads (me : Uid) (n : Nat) : List Ev := List.replicate n (.read me)

theorem items_of (sess : Bool) (me : Uid) (r : Rel) : ∀ (xs : List Uid) (st : St), Fresh sess st → (∀ x ∈ xs, Linked st.g me r x) →
    ∃ s', targetItemsOf sess me r xs st = ⟨.ok (xs.map fun x => (x, oclasses st.g x)), s'⟩ ∧ s'.g = st.g ∧ Fresh sess s' ∧
      s'.log = st.log ++ heard sess (reads me xs.length)
  | [], st, hf, _ => ⟨st, rfl, rfl, hf, by simp only [List.length_nil, reads, List.replicate_zero, heard]; cases sess <;> simp⟩
  | x :: xs, st, hf, hx => by
    have hg : (notifyRead sess me st).g = st.g := by rw [read_g, fresh_seen hf]
    obtain ⟨s', e, h1, h2, h3⟩ := items_of sess me r xs (notifyRead sess me st) (fresh_read sess me st)
      (fun y hy => by rw [hg]; exact hx y (List.mem_cons_of_mem _ hy))
    refine ⟨s', ?_, by rw [h1, hg], h2, ?_⟩
    · simp only [targetItemsOf, targetGet]
      rw [if_pos (by rw [hg]; exact hx x (List.mem_cons_self ..))]
      simp only
      rw [e]
      simp only [hg, List.map_cons]
    · rw [h3, read_log, List.append_assoc, heard_append]; rfl

/-- **C87, items and values.** `items` yields every neighbour once, with the list that `d[x]` gives; `values` the same lists; nothing is changed, and the
session is told about the reading once and once more for each neighbour. -/
theorem target_items_exact (sess : Bool) (me : Uid) (r : Rel) (st : St) :
    ∃ l s', targetItems sess me r st = ⟨.ok l, s'⟩ ∧ targetValues sess me r st = ⟨.ok (l.map (·.2)), s'⟩ ∧
      s'.g = st.seen sess ∧ s'.log = st.log ++ heard sess (reads me (1 + l.length)) ∧ Fresh sess s' ∧
      ((st.seen sess).Nodup → (l.map (·.1)).Nodup) ∧
      ∀ x cs, (x, cs) ∈ l ↔ Linked (st.seen sess) me r x ∧ (targetGet sess me r (.uid x) st).res = .ok cs := by
  obtain ⟨xs, e, hm, hn⟩ := target_iter_exact sess me r st
  obtain ⟨s', e2, h1, h2, h3⟩ := items_of sess me r xs (notifyRead sess me st) (fresh_read sess me st)
    (fun x hx => by rw [read_g]; exact (hm x).1 hx)
  rw [read_g] at h1 e2
  have ei : targetItems sess me r st = ⟨.ok (xs.map fun x => (x, oclasses (st.seen sess) x)), s'⟩ := by
    simp only [targetItems, e]; exact e2
  refine ⟨_, s', ei, ?_, h1, ?_, h2, ?_, fun x cs => ?_⟩
  · simp only [targetValues, ei]
  · rw [h3, read_log, List.append_assoc, heard_append, List.length_map, Nat.add_comm]; rfl
  · intro h
    rw [List.map_map]
    have : ((fun e : Uid × List Cls => e.1) ∘ fun x => (x, oclasses (st.seen sess) x)) = id := rfl
    rw [this, List.map_id]
    exact hn h
  · rw [List.mem_map]
    have hget : Linked (st.seen sess) me r x → (targetGet sess me r (.uid x) st).res = .ok (oclasses (st.seen sess) x) := by
      intro hl
      unfold Linked at hl
      simp only [targetGet, read_g]
      rw [if_pos hl]
    constructor
    · rintro ⟨y, hy, he⟩
      cases he
      have hl := (hm x).1 hy
      exact ⟨hl, hget hl⟩
    · rintro ⟨hl, hc⟩
      rw [hget hl] at hc
      cases hc
      exact ⟨x, (hm x).2 hl, rfl⟩

/-- **C87, equality with a dict.** The neighbours by `r` compare equal to a dict exactly if its keys are the neighbours and each of its values is the
list that `d[x]` gives (in that order). Anything that is no dict, in particular the neighbours of another object, is different. -/
theorem target_eq_exact (sess : Bool) (me : Uid) (r : Rel) (st : St) (hn : (st.seen sess).Nodup) :
    (∀ E : List (TKey × TVal), (E.map (·.1)).Nodup → ∃ b s', targetEq sess me r (.dict E) st = ⟨.ok b, s'⟩ ∧ s'.g = st.seen sess ∧ Fresh sess s' ∧
      (b = true ↔ ∀ k v, (k, v) ∈ E ↔ ∃ x cs, k = .uid x ∧ v = .classes cs ∧ Linked (st.seen sess) me r x ∧
        (targetGet sess me r (.uid x) st).res = .ok cs)) ∧
    ∃ s', targetEq sess me r .other st = ⟨.ok false, s'⟩ ∧ s'.g = st.seen sess ∧ Fresh sess s' := by
  obtain ⟨l, s', e, _, hg, _, hf, hk, hm⟩ := target_items_exact sess me r st
  refine ⟨fun E hE => ⟨dictEq (anyItems l) E, s', by simp only [targetEq, e], hg, hf, ?_⟩, s', by simp only [targetEq, e], hg, hf⟩
  have hka : ((anyItems l).map (·.1)).Nodup := by
    have : (anyItems l).map (·.1) = (l.map (·.1)).map TKey.uid := by unfold anyItems; rw [List.map_map, List.map_map]; rfl
    rw [this]
    exact List.Pairwise.map _ (fun a b h e => h (by cases e; rfl)) (hk hn)
  rw [dictEq_iff hka hE]
  have hany : ∀ k v, (k, v) ∈ anyItems l ↔ ∃ x cs, k = .uid x ∧ v = .classes cs ∧ Linked (st.seen sess) me r x ∧
      (targetGet sess me r (.uid x) st).res = .ok cs := by
    intro k v
    unfold anyItems
    rw [List.mem_map]
    constructor
    · rintro ⟨⟨x, cs⟩, hx, he⟩
      cases he
      exact ⟨x, cs, rfl, rfl, (hm x cs).1 hx⟩
    · rintro ⟨x, cs, rfl, rfl, h⟩
      exact ⟨(x, cs), (hm x cs).2 h, rfl⟩
  constructor
  · intro h k v; rw [← hany]; exact (h k v).symm
  · intro h k v; rw [hany]; exact (h k v).symm

theorem readEach_g (sess : Bool) (me : Uid) : ∀ (rs : List Rel) (st : St), Fresh sess st →
    (readEach sess me rs st).g = st.g ∧ Fresh sess (readEach sess me rs st)
  | [], _, hf => ⟨rfl, hf⟩
  | _ :: rs, st, hf => by
    have := readEach_g sess me rs (notifyRead sess me st) (fresh_read sess me st)
    refine ⟨?_, this.2⟩
    simp only [readEach]
    rw [this.1, read_g, fresh_seen hf]

/-- The answer of an equality depends on the graph alone. -/
theorem targetEq_res {sess : Bool} {me : Uid} {r : Rel} {v : RVal} {s1 s2 : St} (h : s1.seen sess = s2.seen sess) :
    (targetEq sess me r v s1).res = (targetEq sess me r v s2).res := by
  have hxs : ∀ st : St, (targetItems sess me r st).res = .ok ((targets (st.seen sess) me r).map fun x => (x, oclasses (st.seen sess) x)) := by
    intro st
    obtain ⟨s', e2, _⟩ := items_of sess me r (targets (st.seen sess) me r) (notifyRead sess me st) (fresh_read sess me st)
      (fun x hx => by rw [read_g]; exact mem_targets.1 hx)
    rw [read_g] at e2
    simp only [targetItems, targetIter, read_g]
    rw [e2]
  have h1 := hxs s1
  have h2 := hxs s2
  unfold targetEq
  cases e1 : targetItems sess me r s1 with
  | mk r1 t1 => cases e2 : targetItems sess me r s2 with
    | mk r2 t2 =>
      rw [e1] at h1; rw [e2] at h2
      simp only at h1 h2
      rw [h] at h1
      subst h1 h2
      cases v <;> rfl

theorem relEqOf_spec (sess : Bool) (me : Uid) (E : List (RKey × RVal)) (g : Graph) (hn : g.Nodup)
    (hE : ∀ k v, (k, RVal.dict v) ∈ E → (v.map (·.1)).Nodup) (s0 : St) (h0 : s0.seen sess = g) :
    ∀ (rs : List Rel) (st : St), Fresh sess st → st.g = g →
    ∃ b s', relEqOf sess me E rs st = ⟨.ok b, s'⟩ ∧ s'.g = g ∧
      (b = true ↔ ∀ r ∈ rs, ∃ v, E.lookup (.rel r) = some v ∧ (targetEq sess me r v s0).res = .ok true)
  | [], st, _, hg => ⟨true, st, rfl, hg, by simp⟩
  | r :: rs, st, hf, hg => by
    have hseen : st.seen sess = g := by rw [fresh_seen hf, hg]
    simp only [relEqOf]
    cases hl : E.lookup (.rel r) with
    | none =>
      refine ⟨false, st, rfl, hg, by simp, fun h => ?_⟩
      obtain ⟨v, hv, _⟩ := h r (List.mem_cons_self ..)
      rw [hl] at hv; cases hv
    | some v =>
      have heq : ∃ b s', targetEq sess me r v st = ⟨.ok b, s'⟩ ∧ s'.g = g ∧ Fresh sess s' := by
        cases v with
        | other => obtain ⟨s', e, h1, h2⟩ := (target_eq_exact sess me r st (hseen ▸ hn)).2; exact ⟨_, s', e, h1.trans hseen, h2⟩
        | dict D =>
          obtain ⟨b, s', e, h1, h2, _⟩ := (target_eq_exact sess me r st (hseen ▸ hn)).1 D (hE _ D (lookup_mem hl))
          exact ⟨b, s', e, h1.trans hseen, h2⟩
      obtain ⟨b, s', e, h1, h2⟩ := heq
      have hr : (targetEq sess me r v s0).res = .ok b := by
        rw [← targetEq_res (s1 := st) (by rw [hseen, h0]), e]
      simp only [e]
      cases b with
      | false =>
        refine ⟨false, s', rfl, h1, by simp, fun h => ?_⟩
        obtain ⟨v', hv, ht⟩ := h r (List.mem_cons_self ..)
        rw [hl] at hv; cases hv
        rw [hr] at ht; cases ht
      | true =>
        obtain ⟨b', s'', e', h1', h3⟩ := relEqOf_spec sess me E g hn hE s0 h0 rs s' h2 h1
        refine ⟨b', s'', e', h1', h3.trans ?_⟩
        constructor
        · intro h q hq
          rcases List.mem_cons.1 hq with rfl | hq
          · exact ⟨v, hl, hr⟩
          · exact h q hq
        · intro h q hq; exact h q (List.mem_cons_of_mem _ hq)

/-- **C87, equality of all neighbours with a dict.** They compare equal exactly if the keys of the dict are the relationships by which there is
something, and each of its values compares equal to the neighbours by that relationship. -/
theorem rel_eq_exact (sess : Bool) (me : Uid) (E : List (RKey × RVal)) (st : St) (hn : (st.seen sess).Nodup) (hk : (E.map (·.1)).Nodup)
    (hE : ∀ k v, (k, RVal.dict v) ∈ E → (v.map (·.1)).Nodup) :
    ∃ b s', relEq sess me E st = ⟨.ok b, s'⟩ ∧ s'.g = st.seen sess ∧
      (b = true ↔ (∀ k, k ∈ E.map (·.1) ↔ ∃ r o, k = .rel r ∧ ⟨me, .rel r, o⟩ ∈ st.seen sess) ∧
        ∀ r v, (RKey.rel r, v) ∈ E → (targetEq sess me r v st).res = .ok true) := by
  obtain ⟨⟨rs, e, hnd, hm⟩, _⟩ := rel_iter_exact sess me st
  obtain ⟨hr1, hr2⟩ := readEach_g sess me rs (notifyRead sess me st) (fresh_read sess me st)
  rw [read_g] at hr1
  have hru : (rs.map RKey.rel).Nodup := List.Pairwise.map _ (fun a b h e => h (by cases e; rfl)) hnd
  unfold relEq
  simp only [e]
  by_cases hl : rs.length = E.length
  · rw [if_pos hl]
    obtain ⟨b, s', e', h1, h2⟩ := relEqOf_spec sess me E (st.seen sess) hn hE st rfl rs _ hr2 hr1
    refine ⟨b, s', e', h1, h2.trans ?_⟩
    constructor
    · intro h
      have hsub : ∀ k ∈ rs.map RKey.rel, k ∈ E.map (·.1) := by
        intro k hk'
        obtain ⟨r, hr, rfl⟩ := List.mem_map.1 hk'
        obtain ⟨v, hv, _⟩ := h r hr
        exact List.mem_map.2 ⟨_, lookup_mem hv, rfl⟩
      have hsup := sub_of_length (rs.map RKey.rel) (E.map (·.1)) hru hsub (by rw [List.length_map, List.length_map]; omega)
      refine ⟨fun k => ⟨fun hk' => ?_, ?_⟩, fun r v hv => ?_⟩
      · obtain ⟨r, hr, rfl⟩ := List.mem_map.1 (hsup k hk')
        obtain ⟨o, ho⟩ := (hm r).1 hr
        exact ⟨r, o, rfl, ho⟩
      · rintro ⟨r, o, rfl, ho⟩
        exact hsub _ (List.mem_map.2 ⟨r, (hm r).2 ⟨o, ho⟩, rfl⟩)
      · obtain ⟨r', hr', he⟩ := List.mem_map.1 (hsup _ (List.mem_map.2 ⟨_, hv, rfl⟩))
        cases he
        obtain ⟨v', hv', ht⟩ := h r hr'
        rw [lookup_of_mem hk hv] at hv'
        cases hv'; exact ht
    · rintro ⟨hkeys, hvals⟩ r hr
      obtain ⟨o, ho⟩ := (hm r).1 hr
      obtain ⟨⟨k, v⟩, hv, he⟩ := List.mem_map.1 ((hkeys (.rel r)).2 ⟨r, o, rfl, ho⟩)
      simp only at he; subst he
      exact ⟨v, lookup_of_mem hk hv, hvals r v hv⟩
  · rw [if_neg hl]
    refine ⟨false, _, rfl, hr1, by simp, fun ⟨hkeys, _⟩ => ?_⟩
    exfalso
    apply hl
    have hp : (rs.map RKey.rel).Perm (E.map (·.1)) := by
      rw [List.perm_ext_iff_of_nodup hru hk]
      intro k
      rw [hkeys, List.mem_map]
      constructor
      · rintro ⟨r, hr, rfl⟩; obtain ⟨o, ho⟩ := (hm r).1 hr; exact ⟨r, o, rfl, ho⟩
      · rintro ⟨r, o, rfl, ho⟩; exact ⟨r, (hm r).2 ⟨o, ho⟩, rfl⟩
    have := hp.length_eq
    rwa [List.length_map, List.length_map] at this

end Osp.Neighbor
