import Verif.Rdfp.Witness
/-!
# Active relationships a package must not declare (C71)
-/
namespace Osp.Rdfp
open Osp.Yaml (Yaml)

/-- Specification: the graph with each of the relationships declared active. -/
def withActive (g : Gr) (rs : List Text) : Gr := rs.foldl (fun g r => g.add ⟨.iri r, subPropertyOf, .iri activeRelationship⟩) g

theorem addActive_prefix : ∀ (rs : List Text) (g : Gr) (l : List Yaml), (∀ r ∈ rs, ⟨.iri r, rdfType, .iri objectProperty⟩ ∈ g.triples) →
    addActive g (rs.map .str ++ l) = addActive (withActive g rs) l
  | [], _, _, _ => rfl
  | r :: rs, g, l, h => by
    show addActive g (.str r :: (rs.map .str ++ l)) = _
    simp only [addActive, if_pos (h r List.mem_cons_self)]
    rw [addActive_prefix rs _ l (fun x hx => ?_)]
    · rfl
    · have := h x (List.mem_cons_of_mem _ hx)
      show _ ∈ (Gr.add g _).triples
      unfold Gr.add
      first
        | exact List.mem_cons_of_mem _ this
        | exact List.mem_append_left _ this
        | (split
           · exact this
           · simp [this])

/-- **C71.** The first entry of the active relationships that is no text stops the parser with a TypeError, the first that is no object property of the graph with a ValueError; the entries before it
have been declared active. -/
theorem active_refused (g : Gr) (rs : List Text) (v : Yaml) (l : List Yaml) (h : ∀ r ∈ rs, ⟨.iri r, rdfType, .iri objectProperty⟩ ∈ g.triples) :
    ((∀ t, v ≠ .str t) → addActive g (rs.map .str ++ v :: l) = (withActive g rs, some .typeError)) ∧
    (∀ t, v = .str t → ⟨.iri t, rdfType, .iri objectProperty⟩ ∉ (withActive g rs).triples → addActive g (rs.map .str ++ v :: l) = (withActive g rs, some .valueError)) := by
  rw [addActive_prefix rs g _ h]
  constructor
  · intro hv
    cases v <;> first | rfl | exact absurd rfl (hv _)
  · rintro t rfl ht
    simp only [addActive, if_neg ht]

/-- Example: a graph with one object property. -/
def exActive : Gr := ⟨[⟨.iri "http://x#p".toList, rdfType, .iri objectProperty⟩], ⟨[], []⟩⟩

example : addActive exActive [.str "http://x#p".toList, .int 3] = (withActive exActive ["http://x#p".toList], some .typeError) :=
  (active_refused exActive ["http://x#p".toList] (.int 3) [] (fun r hr => by rw [List.mem_singleton] at hr; subst hr; exact List.mem_cons_self)).1 (fun _ h => nomatch h)

/-- **C71.** The first entry of the namespaces that is not a pair of texts stops the parser with an AttributeError; the entries before it have been bound. -/
theorem namespaces_refused (k v : Yaml) (rest : List (Yaml × Yaml)) (h : (∀ t, k ≠ .str t) ∨ ∀ t, v ≠ .str t) : ∀ (l : List (Text × Text)) (b : Binds),
    bindAll b (l.map (fun e => (.str e.1, .str e.2)) ++ (k, v) :: rest) = (l.foldl (fun b e => b.bind e.1 (withHash e.2)) b, .error .attributeError)
  | [], b => by
    show bindAll b ((k, v) :: rest) = (b, .error .attributeError)
    cases k <;> cases v <;> first | rfl | (rcases h with h | h <;> exact absurd rfl (h _))
  | (p, i) :: l, b => by
    show bindAll b ((.str p, .str i) :: (l.map (fun e => (.str e.1, .str e.2)) ++ (k, v) :: rest)) = _
    simp only [bindAll, namespaces_refused k v rest h l]
    rfl

end Osp.Rdfp
