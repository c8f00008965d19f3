import Verif.Equal.Model
/-!
# Equality and hashing are consistent (C88)
-/
namespace Osp.Equal
open Osp.Cuds

/-! ### objects -/

/-- **C88.** Two objects are equal exactly if they have the same uid and, at that moment, the same class (or none). -/
theorem cuds_eq_iff (W : World) (x y : Handle) : cudsEq W x (.cuds y) = true ↔ x.uid = y.uid ∧ Cuds.oclass (W x.gid) x.uid = Cuds.oclass (W y.gid) y.uid := by
  show (decide (y.oclass W = x.oclass W) && decide (x.uid = y.uid)) = true ↔ _
  rw [Bool.and_eq_true]
  exact ⟨fun ⟨a, b⟩ => ⟨of_decide_eq_true b, (of_decide_eq_true a).symm⟩, fun ⟨a, b⟩ => ⟨decide_eq_true b.symm, decide_eq_true a⟩⟩

/-- **C88.** Objects that belong to the same graph are equal exactly if they have the same uid, whatever happens to the graph. -/
theorem cuds_eq_same_graph (W : World) (x y : Handle) (h : x.gid = y.gid) : cudsEq W x (.cuds y) = true ↔ x.uid = y.uid := by
  rw [cuds_eq_iff, h]
  exact ⟨And.left, fun e => ⟨e, by rw [e]⟩⟩

/-- **C88.** An object of one session equals its counterpart in another exactly if it has the same uid and both sessions give it the same class. -/
theorem cuds_eq_sessions {O : Onto} (hW : O.WF) {s t : Sess} (hs : Reachable O s) (ht : Reachable O t) (W : World) (x y : Handle) (hx : W x.gid = s.g) (hy : W y.gid = t.g) :
    cudsEq W x (.cuds y) = true ↔ x.uid = y.uid ∧ ∀ c, (⟨x.uid, .type, .cls c⟩ : Triple) ∈ s.g ↔ (⟨y.uid, .type, .cls c⟩ : Triple) ∈ t.g := by
  rw [cuds_eq_iff, hx, hy]
  obtain ⟨A, hA, _⟩ := reachable_view hW hs
  obtain ⟨B, hB, _⟩ := reachable_view hW ht
  have key : ∀ (r : Sess) (C : Abs), Refines r C → ∀ u, Cuds.oclass r.g u = C.cls u := by
    intro r C h u
    cases hc : C.cls u with
    | none =>
      have : oclasses r.g u = [] := by
        rw [List.eq_nil_iff_forall_not_mem]
        intro c hm
        have := (h.type u c).1 (mem_oclasses.1 hm)
        rw [hc] at this; cases this
      simp [Cuds.oclass, this]
    | some c =>
      have h1 : c ∈ oclasses r.g u := mem_oclasses.2 ((h.type u c).2 hc)
      cases hl : oclasses r.g u with
      | nil => rw [hl] at h1; cases h1
      | cons d l =>
        have h2 : d ∈ oclasses r.g u := by rw [hl]; simp
        have := (h.type u d).1 (mem_oclasses.1 h2)
        rw [hc] at this
        cases this
        simp [Cuds.oclass, hl]
  rw [key _ _ hA, key _ _ hB]
  refine and_congr_right fun _ => ?_
  constructor
  · intro e c
    rw [hA.type, hB.type, e]
  · intro e
    cases hc : A.cls x.uid with
    | some c => exact ((hB.type _ _).1 ((e c).1 ((hA.type _ _).2 hc))).symm
    | none =>
      cases hd : B.cls y.uid with
      | none => rfl
      | some d =>
        have := (hA.type _ _).1 ((e d).2 ((hB.type _ _).2 hd))
        rw [hc] at this; cases this

/-! ### the equality of Python -/

/-- **C88.** Objects and entities never raise when compared; an object is equal only to objects, an entity only to entities. -/
theorem eq_kinds (W : World) (o : Any) : (∀ x, ∃ b, pyEq W (.cuds x) o = .ok b ∧ (b = true → ∃ y, o = .cuds y)) ∧ (∀ e, ∃ b, pyEq W (.entity e) o = .ok b ∧ (b = true → ∃ f, o = .entity f)) := by
  constructor
  · intro x
    refine ⟨_, rfl, fun h => ?_⟩
    cases o <;> first | exact ⟨_, rfl⟩ | cases h
  · intro x
    refine ⟨_, rfl, fun h => ?_⟩
    cases o <;> first | exact ⟨_, rfl⟩ | cases h

/-- **C88.** Two entities are equal exactly if their IRIs are equal. -/
theorem entity_eq_iff (e f : Entity) : entityEq e (.entity f) = true ↔ e.nsIri ++ e.suffix = f.nsIri ++ f.suffix := by
  exact decide_eq_true_iff

/-- **C88.** Two namespaces are equal exactly if they have the same name, the same IRI and belong to the same registry. Comparing them never raises. -/
theorem ns_eq_iff (n m : Ns) : ∃ b, nsEq n (.ns m) = .ok b ∧ (b = true ↔ n = m) := by
  obtain ⟨a, b, c⟩ := n
  obtain ⟨a', b', c'⟩ := m
  simp only [nsEq, Any.name, Any.iri, Any.reg]
  by_cases h1 : a = a'
  · by_cases h2 : b = b'
    · exact ⟨decide (c = c'), by simp [h1, h2], by simp [h1, h2]⟩
    · exact ⟨false, by simp [h1, h2], by simp [h2]⟩
  · exact ⟨false, by simp [h1], by simp [h1]⟩

/-- What the equality of Python means on these objects, where it does not raise. Specification. -/
def Same (W : World) : Any → Any → Prop
  | .cuds x, .cuds y => x.uid = y.uid ∧ Cuds.oclass (W x.gid) x.uid = Cuds.oclass (W y.gid) y.uid
  | .entity e, .entity f => e.nsIri ++ e.suffix = f.nsIri ++ f.suffix
  | .ns n, .ns m => n = m
  | _, _ => False

theorem pyEq_same (W : World) (a b : Any) : pyEq W a b = .ok true ↔ Same W a b := by
  cases a with
  | cuds x => cases b with
    | cuds y => simp only [pyEq, Except.ok.injEq, cuds_eq_iff, Same]
    | _ => simp [pyEq, cudsEq, Same]
  | entity e => cases b with
    | entity f => simp only [pyEq, Except.ok.injEq, entity_eq_iff, Same]
    | _ => simp [pyEq, entityEq, Same]
  | ns n => cases b with
    | ns m =>
      obtain ⟨v, h1, h2⟩ := ns_eq_iff n m
      simp only [pyEq, h1, Except.ok.injEq, h2, Same]
    | cuds y => simp [pyEq, nsEq, Any.name, Same]
    | entity f =>
      simp only [pyEq, nsEq, Any.name, Any.iri, Same, iff_false]
      split <;> simp
    | other a i =>
      simp only [pyEq, nsEq, Any.name, Any.iri, Any.reg, Same, iff_false]
      cases a with
      | none => simp
      | some a =>
        cases i with
        | none => simp only; split <;> simp
        | some i => simp only; split <;> [split; skip] <;> simp
  | other n i => simp [pyEq, Same]

/-- **C88.** Equality is reflexive on objects, entities and namespaces, symmetric and transitive. -/
theorem eq_equivalence (W : World) : (∀ a, (∀ n i, a ≠ .other n i) → pyEq W a a = .ok true) ∧ (∀ a b, pyEq W a b = .ok true → pyEq W b a = .ok true) ∧
    (∀ a b c, pyEq W a b = .ok true → pyEq W b c = .ok true → pyEq W a c = .ok true) := by
  simp only [pyEq_same]
  refine ⟨fun a h => ?_, fun a b h => ?_, fun a b c h1 h2 => ?_⟩
  · cases a with
    | cuds x => exact ⟨rfl, rfl⟩
    | entity e => exact rfl
    | ns n => exact rfl
    | other n i => exact absurd rfl (h n i)
  · cases a <;> cases b <;> first | exact ⟨h.1.symm, h.2.symm⟩ | exact Eq.symm h | exact h
  · cases a <;> cases b <;> first | exact h1.elim | (cases c <;> first | exact h2.elim | exact ⟨h1.1.trans h2.1, h1.2.trans h2.2⟩ | exact Eq.trans h1 h2)

/-- **C88.** Equal objects have the same hash, whatever hash function Python uses for uids and strings. -/
theorem eq_hash (W : World) (h : Hashes) (a b : Any) (he : pyEq W a b = .ok true) : pyHash h a = pyHash h b := by
  rw [pyEq_same] at he
  cases a <;> cases b <;> first | exact he.elim | skip
  · exact congrArg h.uid he.1
  · exact congrArg h.text he
  · exact congrArg (fun n : Ns => h.text n.str) he

/-- **C88.** The hash of an object does not depend on the state of any session; so an object is found again in a set or dictionary after any changes. -/
theorem hash_stable (W W' : World) (h : Hashes) (S : List Handle) (x : Handle) (hx : x ∈ S) : inSet W h S x = true ∧ inSet W' h S x = true := by
  constructor <;> exact List.any_eq_true.2 ⟨x, hx, by simp⟩

/-- **C88.** Comparing a namespace with something that is no namespace raises an AttributeError, unless it has a name that is different. -/
theorem ns_eq_other (n : Ns) (o : Any) (ho : ∀ m, o ≠ .ns m) : (nsEq n o = .error .attributeError ∨ nsEq n o = .ok false) ∧
    (∀ x, o = .cuds x → nsEq n o = .error .attributeError) ∧ (∀ e, o = .entity e → (nsEq n o = .error .attributeError ↔ e.name = n.name)) := by
  refine ⟨?_, ?_, ?_⟩
  · cases o with
    | cuds x => exact Or.inl rfl
    | entity e => simp only [nsEq, Any.name, Any.iri]; split <;> simp
    | ns m => exact absurd rfl (ho m)
    | other a i =>
      cases a with
      | none => exact Or.inl rfl
      | some a =>
        cases i with
        | none => simp only [nsEq, Any.name, Any.iri]; split <;> simp
        | some i => simp only [nsEq, Any.name, Any.iri, Any.reg]; split <;> [split; skip] <;> simp
  · rintro x rfl; rfl
  · rintro e rfl
    simp only [nsEq, Any.name, Any.iri]
    split
    · rename_i h; simp [h]
    · rename_i h; simp only [reduceCtorEq, false_iff]; exact fun e => h e.symm

/-! ### sets of objects -/

/-- **C88.** A Python set of objects of one session behaves like the set of their uids, for every hash function and whatever their classes are. -/
theorem in_set_iff (W : World) (h : Hashes) (S : List Handle) (x : Handle) (hS : ∀ y ∈ S, y.gid = x.gid) (ho : ∀ y ∈ S, y.oid = x.oid → y.uid = x.uid) :
    inSet W h S x = true ↔ ∃ y ∈ S, y.uid = x.uid := by
  unfold inSet
  simp only [List.any_eq_true, Bool.and_eq_true, Bool.or_eq_true, decide_eq_true_eq]
  constructor
  · rintro ⟨y, hy, _, h2 | h2⟩
    · exact ⟨y, hy, ho y hy h2⟩
    · exact ⟨y, hy, ((cuds_eq_same_graph W y x (hS y hy)).1 h2)⟩
  · rintro ⟨y, hy, e⟩
    exact ⟨y, hy, congrArg h.uid e, Or.inr ((cuds_eq_same_graph W y x (hS y hy)).2 e)⟩

/-- All objects of a family belong to graph `G`, and the same Python object has the same uid. -/
def Family (G : Nat) (F : Handle → Prop) : Prop := (∀ x, F x → x.gid = G) ∧ ∀ x y, F x → F y → x.oid = y.oid → x.uid = y.uid

/-- The uids in a set of objects. -/
def uids (S : List Handle) (u : Uid) : Prop := ∃ x ∈ S, x.uid = u

theorem insert_spec (W : World) (h : Hashes) {G : Nat} {F : Handle → Prop} (hF : Family G F) (S : List Handle) (x : Handle) (hS : ∀ y ∈ S, F y) (hx : F x) :
    (∀ y ∈ insert W h S x, F y) ∧ (∀ u, uids (insert W h S x) u ↔ uids S u ∨ x.uid = u) ∧ ((S.map (·.uid)).Nodup → ((insert W h S x).map (·.uid)).Nodup) := by
  have hi := in_set_iff W h S x (fun y hy => (hF.1 y (hS y hy)).trans (hF.1 x hx).symm) (fun y hy => hF.2 y x (hS y hy) hx)
  unfold insert
  split
  · rename_i hc
    refine ⟨hS, fun u => ⟨Or.inl, ?_⟩, id⟩
    rintro (hu | rfl)
    · exact hu
    · exact hi.1 hc
  · rename_i hc
    refine ⟨fun y hy => ?_, fun u => ?_, fun hn => ?_⟩
    · rcases List.mem_append.1 hy with hy | hy
      · exact hS y hy
      · rw [List.mem_singleton.1 hy]; exact hx
    · simp only [uids, List.mem_append, List.mem_singleton]
      constructor
      · rintro ⟨y, hy | rfl, e⟩
        · exact Or.inl ⟨y, hy, e⟩
        · exact Or.inr e
      · rintro (⟨y, hy, e⟩ | e)
        · exact ⟨y, Or.inl hy, e⟩
        · exact ⟨x, Or.inr rfl, e⟩
    · rw [List.map_append, List.nodup_append]
      refine ⟨hn, by simp, ?_⟩
      intro a ha b hb hab
      subst hab
      simp only [List.map_cons, List.map_nil, List.mem_singleton] at hb
      subst hb
      obtain ⟨y, hy, e⟩ := List.mem_map.1 ha
      exact hc (hi.2 ⟨y, hy, e⟩)

theorem union_spec (W : World) (h : Hashes) {G : Nat} {F : Handle → Prop} (hF : Family G F) (T S : List Handle) (hS : ∀ y ∈ S, F y) (hT : ∀ y ∈ T, F y) :
    (∀ y ∈ union W h S T, F y) ∧ (∀ u, uids (union W h S T) u ↔ uids S u ∨ uids T u) ∧ ((S.map (·.uid)).Nodup → ((union W h S T).map (·.uid)).Nodup) := by
  induction T generalizing S with
  | nil => exact ⟨hS, fun u => by simp [union, uids], id⟩
  | cons x T ih =>
    obtain ⟨a, b, c⟩ := insert_spec W h hF S x hS (hT x (by simp))
    obtain ⟨a', b', c'⟩ := ih (insert W h S x) a (fun y hy => hT y (by simp [hy]))
    refine ⟨a', fun u => ?_, fun hn => c' (c hn)⟩
    show uids (union W h (insert W h S x) T) u ↔ _
    rw [b', b, or_assoc]
    refine or_congr_right ?_
    simp only [uids, List.mem_cons, exists_eq_or_imp]

/-- The two results agree: both end, and with the same uids. -/
def Agree (F : Handle → Prop) (a : Option (List Handle)) (b : Option (List Uid)) : Prop :=
  (∃ S T, a = some S ∧ b = some T ∧ (∀ y ∈ S, F y) ∧ (S.map (·.uid)).Nodup ∧ ∀ u, uids S u ↔ u ∈ T) ∨ (a = none ∧ b = none)

theorem loop_agree (W : World) (h : Hashes) {G : Nat} {F : Handle → Prop} (hF : Family G F) (recH : Handle → List Handle → Option (List Handle)) (rec : Uid → List Uid → Option (List Uid))
    (hrec : ∀ c S T, F c → (∀ y ∈ S, F y) → (∀ u, uids S u ↔ u ∈ T) → Agree F (recH c S) (rec c.uid T))
    (skip : List Handle) (skip' : List Uid) (hk : ∀ y ∈ skip, F y) (hk' : ∀ u, uids skip u ↔ u ∈ skip')
    (cs : List Handle) (hc : ∀ y ∈ cs, F y) (sub : List Handle) (sub' : List Uid) (hs : ∀ y ∈ sub, F y) (hn : (sub.map (·.uid)).Nodup) (hs' : ∀ u, uids sub u ↔ u ∈ sub') :
    Agree F (subtreeLoopH W h recH skip cs sub) (Search.subtreeLoop rec skip' (cs.map (·.uid)) sub') := by
  induction cs generalizing sub sub' with
  | nil => exact Or.inl ⟨sub, sub', rfl, rfl, hs, hn, hs'⟩
  | cons c cs ih =>
    have hcF := hc c (by simp)
    obtain ⟨u1, u2, _⟩ := union_spec W h hF sub skip hk hs
    have hi := in_set_iff W h (union W h skip sub) c (fun y hy => (hF.1 y (u1 y hy)).trans (hF.1 c hcF).symm) (fun y hy => hF.2 y c (u1 y hy) hcF)
    have hi2 : inSet W h (union W h skip sub) c = true ↔ c.uid ∈ skip' ∨ c.uid ∈ sub' := hi.trans ((u2 c.uid).trans (or_congr (hk' _) (hs' _)))
    have ih' := fun s s' a b c => ih (fun y hy => hc y (by simp [hy])) s s' a b c
    simp only [subtreeLoopH, List.map_cons, Search.subtreeLoop]
    by_cases hin : inSet W h (union W h skip sub) c = true
    · rw [if_pos hin, if_pos (hi2.1 hin)]
      exact ih' sub sub' hs hn hs'
    · rw [if_neg hin, if_neg (fun e => hin (hi2.2 e))]
      rcases hrec c (union W h skip sub) (skip' ++ sub') hcF u1 (fun u => by rw [u2, List.mem_append, hk', hs']) with ⟨S, T, e1, e2, g1, _, g3⟩ | ⟨e1, e2⟩
      · rw [e1, e2]
        obtain ⟨w1, w2, w3⟩ := union_spec W h hF S sub hs g1
        exact ih' _ _ w1 (w3 hn) (fun u => by rw [w2, List.mem_append, hs', g3])
      · rw [e1, e2]; exact Or.inr ⟨rfl, rfl⟩

theorem subtree_agree (W : World) (h : Hashes) {G : Nat} {F : Handle → Prop} (hF : Family G F) (kids : Handle → List Handle) (succ : Uid → List Uid)
    (hkids : ∀ x, F x → (∀ y ∈ kids x, F y) ∧ (kids x).map (·.uid) = succ x.uid) (fuel : Nat) (root : Handle) (hr : F root) (skip : List Handle) (skip' : List Uid)
    (hk : ∀ y ∈ skip, F y) (hk' : ∀ u, uids skip u ↔ u ∈ skip') : Agree F (getSubtreeH W h kids fuel root skip) (Search.getSubtree succ fuel root.uid skip') := by
  induction fuel generalizing root skip skip' with
  | zero => exact Or.inr ⟨rfl, rfl⟩
  | succ fuel ih =>
    simp only [getSubtreeH, Search.getSubtree]
    rw [← (hkids root hr).2]
    exact loop_agree W h hF _ _ (fun c S T hc hS hST => ih c hc S T hS hST) skip skip' hk hk' (kids root) (hkids root hr).1 [root] [root.uid] (by simpa using hr) (by simp)
      (fun u => by simp [uids, eq_comm])

/-- The Python objects of a session: one for every uid, `obj u`, in the session's graph `G`. -/
def objects (G : Nat) (obj : Uid → Nat) (u : Uid) : Handle := ⟨obj u, G, u⟩

/-- **C88, C23.** `get_subtree` works with Python sets of objects, which compare by hash, uid and class. For every hash function, in every reachable session, it returns exactly one
object for every uid reachable from the root (without going through the objects to skip), and no other. -/
theorem get_subtree_objects {O : Onto} (hW : O.WF) {s : Sess} (hs : Reachable O s) (W : World) (h : Hashes) (G : Nat) (obj : Uid → Nat) (hobj : ∀ u v, obj u = obj v → u = v)
    (rel : Option Rel) (root : Uid) (hroot : root ∈ s.reg) (skip : List Uid) (fuel : Nat) (hf : s.reg.length + 1 ≤ fuel) :
    ∃ T, getSubtreeH W h (fun x => (Search.children O s rel x.uid).map (objects G obj)) fuel (objects G obj root) (skip.map (objects G obj)) = some T ∧ (T.map (·.uid)).Nodup ∧
      ∀ x, x ∈ T ↔ x = objects G obj x.uid ∧ Search.ReachesAvoiding O s rel skip root x.uid := by
  have hF : Family G (fun x => x = objects G obj x.uid) := ⟨fun x hx => by rw [hx]; rfl, fun x y hx hy e => by
    rw [hx, hy] at e; exact hobj _ _ e⟩
  have hmk : ∀ u, objects G obj u = objects G obj (objects G obj u).uid := fun _ => rfl
  obtain ⟨T', e1, e2⟩ := Search.get_subtree_exact hW hs rel root hroot skip fuel hf
  have hall : ∀ l : List Uid, ∀ y ∈ l.map (objects G obj), y = objects G obj y.uid := fun l y hy => by
    obtain ⟨v, _, rfl⟩ := List.mem_map.1 hy; exact hmk v
  have := subtree_agree W h hF (fun x => (Search.children O s rel x.uid).map (objects G obj)) (Search.children O s rel) (fun x _ => ⟨hall _, by
    rw [List.map_map]; exact List.map_id _⟩) fuel (objects G obj root) (hmk root) (skip.map (objects G obj)) skip (hall _) (fun u => by
      simp only [uids, List.mem_map]
      constructor
      · rintro ⟨x, ⟨v, hv, rfl⟩, rfl⟩; exact hv
      · intro hu; exact ⟨_, ⟨u, hu, rfl⟩, rfl⟩)
  rcases this with ⟨S, T, a, b, c, d, e⟩ | ⟨a, b⟩
  · refine ⟨S, a, d, fun x => ?_⟩
    have hb : T' = T := by
      have : Search.getSubtree (Search.children O s rel) fuel root skip = some T := b
      rw [e1] at this
      exact Option.some.inj this
    subst hb
    rw [← e2, ← e]
    constructor
    · exact fun hx => ⟨c x hx, x, hx, rfl⟩
    · rintro ⟨hx, y, hy, hxy⟩
      rw [hx, ← hxy, ← c y hy]; exact hy
  · have : Search.getSubtree (Search.children O s rel) fuel root skip = none := b
    rw [e1] at this; cases this

/-! ### the default relationship of a namespace -/

theorem defaultLoop_ok {E : Type} (fromIri : Text → Except PyErr E) (os : List Text) (xs : List E) (h : os.map fromIri = xs.map .ok) (r : Option E) :
    defaultLoop fromIri os r = (.ok (xs.getLast?.or r), some (xs.getLast?.or r)) := by
  induction os generalizing xs r with
  | nil =>
    cases xs with
    | nil => rfl
    | cons x xs => cases h
  | cons o os ih =>
    cases xs with
    | nil => cases h
    | cons x xs =>
      simp only [List.map_cons, List.cons.injEq] at h
      simp only [defaultLoop, h.1]
      rw [ih xs h.2]
      cases xs with
      | nil => rfl
      | cons y ys =>
        rw [List.getLast?_cons_cons]
        cases hl : (y :: ys).getLast? with
        | none => simp at hl
        | some z => rfl

theorem defaultLoop_error {E : Type} (fromIri : Text → Except PyErr E) (os : List Text) (xs : List E) (h : os.map fromIri = xs.map .ok) (o : Text) (e : PyErr) (he : fromIri o = .error e)
    (rest : List Text) (r : Option E) : defaultLoop fromIri (os ++ o :: rest) r = (.error e, some (xs.getLast?.or r)) := by
  induction os generalizing xs r with
  | nil =>
    cases xs with
    | nil => simp only [List.nil_append, defaultLoop, he]; rfl
    | cons x xs => cases h
  | cons o' os ih =>
    cases xs with
    | nil => cases h
    | cons x xs =>
      simp only [List.map_cons, List.cons.injEq] at h
      simp only [List.cons_append, defaultLoop, h.1]
      rw [ih xs h.2]
      cases xs with
      | nil => rfl
      | cons y ys =>
        rw [List.getLast?_cons_cons]
        cases hl : (y :: ys).getLast? with
        | none => simp at hl
        | some z => rfl

/-- **C88.** The default relationship of a namespace, asked for the first time, is the entity of the last of its triples, or none without triples; every later question gets the same answer
whatever the graph says then. -/
theorem default_rel_exact {E : Type} (fromIri fromIri' : Text → Except PyErr E) (os os' : List Text) (xs : List E) (h : os.map fromIri = xs.map .ok) :
    (getDefaultRel fromIri os none).1 = .ok xs.getLast? ∧ getDefaultRel fromIri' os' (getDefaultRel fromIri os none).2 = (.ok xs.getLast?, (getDefaultRel fromIri os none).2) := by
  have := defaultLoop_ok fromIri os xs h none
  rw [Option.or_none] at this
  simp only [getDefaultRel, this]
  exact ⟨trivial, trivial⟩

/-- **C88, finding.** If one of the triples names an unknown entity the first question raises, but the second does not: it gets the entity of the triple before, or none. -/
theorem default_rel_raises_once {E : Type} (fromIri fromIri' : Text → Except PyErr E) (os rest os' : List Text) (xs : List E) (h : os.map fromIri = xs.map .ok) (o : Text) (e : PyErr)
    (he : fromIri o = .error e) : (getDefaultRel fromIri (os ++ o :: rest) none).1 = .error e ∧
      (getDefaultRel fromIri' os' (getDefaultRel fromIri (os ++ o :: rest) none).2).1 = .ok xs.getLast? := by
  have := defaultLoop_error fromIri os xs h o e he rest none
  rw [Option.or_none] at this
  simp only [getDefaultRel, this]
  exact ⟨trivial, trivial⟩

end Osp.Equal
