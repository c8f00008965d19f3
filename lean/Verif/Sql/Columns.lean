import Verif.Sql.Arrays
/-!
# Vector columns (C36)
-/
namespace Osp.Sql
variable {V : Type} [Inhabited V]

/-- The name does not look like the column of a vector element. Specification; nothing in /repo. -/
def PlainName (c : Text) : Prop := ∀ u k, c ≠ u ++ vecSuffix k

/-- The type of a column: anything that is not a vector, or a vector of known shape with at least one element. Specification; nothing in /repo. -/
inductive Ty where
  | scalar (dt : Option Text)
  | vec (elem : Text) (shape : List Nat)

/-- Specification; nothing in /repo. -/
def Ty.iri : Ty → Option Text
  | .scalar dt => dt
  | .vec e sh => some (vecIri e sh)

/-- Specification; nothing in /repo. -/
def Ty.Good : Ty → Prop
  | .scalar dt => ∀ i, dt = some i → isVec i = false
  | .vec e sh => e ∈ ymlNames ∧ sh ≠ [] ∧ 0 < shapeSize sh

/-- The value belongs to the type. Specification; nothing in /repo. -/
def Fits : Ty → Val V → Prop
  | .scalar _, .sc _ => True
  | .vec _ sh, .vec a => HasShape sh a
  | _, _ => False

/-- A column of a table: its declared type and the value in the row. Specification; nothing in /repo. -/
structure Col (V : Type) where
  name : Text
  ty : Ty
  val : Val V

/-- Specification; nothing in /repo. -/
structure Col.Good (d0 : DTs) (x : Col V) : Prop where
  plain : PlainName x.name
  ty : x.ty.Good
  declared : d0 x.name = some x.ty.iri
  fits : Fits x.ty x.val

/-! ### names -/

theorem vecSuffix_eq (k : Nat) : vecSuffix k = ['_', '_'] ++ '_' :: dec k := rfl

theorem vecSuffix_unique {u u' : Text} {k k' : Nat} (h : u ++ vecSuffix k = u' ++ vecSuffix k') : u = u' ∧ k = k' := by
  rw [vecSuffix_eq, vecSuffix_eq, ← List.append_assoc, ← List.append_assoc] at h
  have hd : ∀ n, '_' ∉ dec n := fun n hn => (isDigit_ne (dec_digits n _ hn)).1 rfl
  obtain ⟨h1, h2⟩ := sep_unique '_' (hd k) (hd k') h
  exact ⟨List.append_cancel_right h1, dec_injective h2⟩

theorem plain_not_suffix {c : Text} (h : PlainName c) (k : Nat) : endsWith c (vecSuffix k) = false := by
  cases hb : endsWith c (vecSuffix k) with
  | false => rfl
  | true =>
    obtain ⟨u, hu⟩ := (endsWith_iff _ _).1 hb
    exact absurd hu (h u k)

theorem elem_suffix (c : Text) (k n : Nat) : endsWith (c ++ vecSuffix k) (vecSuffix n) = decide (k = n) := by
  by_cases h : k = n
  · subst h
    rw [(endsWith_iff _ _).2 ⟨c, rfl⟩]; simp
  · cases hb : endsWith (c ++ vecSuffix k) (vecSuffix n) with
    | false => simp [h]
    | true =>
      obtain ⟨u, hu⟩ := (endsWith_iff _ _).1 hb
      exact absurd (vecSuffix_unique hu).2 h

/-! ### expansion -/

/-- The expanded columns of one column. Proof device; nothing in /repo. -/
def Col.cells (x : Col V) : List (Text × V) := match x.val with
  | .sc v => [(x.name, v)]
  | .vec a => (List.range a.flat.length).map (fun k => x.name ++ vecSuffix k) |>.zip a.flat

/-- The datatypes dictionary after expanding. Proof device; nothing in /repo. -/
structure Expanded (d0 : DTs) (done : List (Col V)) (d : DTs) : Prop where
  plain : ∀ c, PlainName c → d c = d0 c
  elem : ∀ x ∈ done, ∀ e sh, x.ty = .vec e sh → ∀ k, k < shapeSize sh → d (x.name ++ vecSuffix k) = some (some e)

theorem set_apply (d : DTs) (c : Text) (x : Option Text) (k : Text) : d.set c x k = if k = c then some x else d k := rfl

theorem foldl_set (cols : List Text) (x : Option Text) : ∀ (d : DTs) (k : Text), (cols.foldl (fun d k => d.set k x) d) k = if k ∈ cols then some x else d k := by
  induction cols with
  | nil => intro d k; simp
  | cons c cs ih =>
    intro d k
    rw [List.foldl_cons, ih]
    by_cases h1 : k ∈ cs
    · simp [h1]
    · by_cases h2 : k = c
      · simp [h2, DTs.set]
      · simp [h1, h2, DTs.set]

theorem expandedCols_vec {e : Text} {sh : List Nat} (he : e ∈ ymlNames) (hs : sh ≠ []) (c : Text) :
    expandedCols c (vecIri e sh) = .ok ((List.range (shapeSize sh)).map (fun k => c ++ vecSuffix k), e) := by
  unfold expandedCols
  rw [isVec_vecIri]
  simp only [Bool.not_true, Bool.false_eq_true, if_false]
  rw [vector_iri_roundtrip e he sh hs]
  simp only
  rw [if_neg hs]

omit [Inhabited V] in
theorem expandCols_spec (d0 : DTs) : ∀ (xs done : List (Col V)) (out : List (Text × V)) (d : DTs), (∀ x ∈ xs, x.Good d0) → (∀ x ∈ done, x.Good d0) → Expanded d0 done d →
    ∃ d', expandCols d0 (xs.map (fun x => (x.name, x.val))) (out, d) = .ok (out ++ (xs.map Col.cells).flatten, d') ∧ Expanded d0 (done ++ xs) d' := by
  intro xs
  induction xs with
  | nil => intro done out d _ _ h; exact ⟨d, by simp [expandCols], by simpa using h⟩
  | cons x xs ih =>
    intro done out d hg hd hE
    have hx := hg x List.mem_cons_self
    have hrest : ∀ y ∈ xs, y.Good d0 := fun y hy => hg y (List.mem_cons_of_mem _ hy)
    have hd2 : ∀ y ∈ done ++ [x], y.Good d0 := by
      intro y hy
      rcases List.mem_append.1 hy with h | h
      · exact hd y h
      · simp only [List.mem_cons, List.not_mem_nil, or_false] at h; subst h; exact hx
    obtain ⟨name, ty, val⟩ := x
    have hdecl := hx.declared
    have hty := hx.ty
    have hfits := hx.fits
    have hpl := hx.plain
    dsimp only at hdecl hty hfits hpl
    cases ty with
    | scalar dt =>
      cases val with
      | vec a => exact hfits.elim
      | sc v =>
        have hall : (dt.all (fun i => !isVec i)) = true := by
          cases dt with
          | none => rfl
          | some i => simp [hty i rfl]
        have hE2 : Expanded d0 (done ++ [⟨name, .scalar dt, .sc v⟩]) (d.set name dt) := by
          constructor
          · intro c hc
            unfold DTs.set
            split
            · rename_i h; subst h; exact hdecl.symm
            · exact hE.plain c hc
          · intro y hy e sh hys k hk
            rcases List.mem_append.1 hy with h | h
            · unfold DTs.set
              rw [if_neg (fun e => hpl _ _ e.symm)]
              exact hE.elem y h e sh hys k hk
            · simp only [List.mem_cons, List.not_mem_nil, or_false] at h
              subst h
              cases hys
        obtain ⟨d', h1, h2⟩ := ih _ (out ++ [(name, v)]) _ hrest hd2 hE2
        refine ⟨d', ?_, by simpa using h2⟩
        simp only [List.map_cons, expandCols, hdecl, Ty.iri, hall, if_true, h1]
        simp [Col.cells]
    | vec e sh =>
      cases val with
      | sc v => exact hfits.elim
      | vec a =>
        obtain ⟨he, hs, hpos⟩ := hty
        have hlen : a.flat.length = shapeSize sh := flat_length sh a hfits
        have hall : ((some (vecIri e sh)).all (fun i => !isVec i)) = false := by simp [isVec_vecIri]
        have hE2 : Expanded d0 (done ++ [⟨name, .vec e sh, .vec a⟩])
            (((List.range (shapeSize sh)).map (fun k => name ++ vecSuffix k)).foldl (fun d k => d.set k (some e)) d |>.set name (some (vecIri e sh))) := by
          constructor
          · intro c hc
            rw [set_apply]
            split
            · rename_i h; subst h; exact hdecl.symm
            · rw [foldl_set, if_neg]
              · exact hE.plain c hc
              · intro hm
                obtain ⟨k, _, hk⟩ := List.mem_map.1 hm
                exact hc _ _ hk.symm
          · intro y hy e' sh' hys k hk
            rw [set_apply, if_neg (fun e => hpl _ _ e.symm), foldl_set]
            have hyg := hd2 y hy
            split
            · rename_i hm
              obtain ⟨k', _, hk'⟩ := List.mem_map.1 hm
              have hnn := (vecSuffix_unique hk').1
              have h1 := hyg.declared
              rw [hys, ← hnn, hdecl] at h1
              simp only [Ty.iri, Option.some.injEq] at h1
              have h2 := hyg.ty
              rw [hys] at h2
              have r1 := vector_iri_roundtrip e he sh hs
              rw [h1, vector_iri_roundtrip e' h2.1 sh' h2.2.1] at r1
              injection r1 with r1
              injection r1 with r1 r2
              rw [r1]
            · rename_i hm
              rcases List.mem_append.1 hy with h | h
              · exact hE.elem y h e' sh' hys k hk
              · simp only [List.mem_cons, List.not_mem_nil, or_false] at h
                subst h
                injection hys with q1 q2
                subst q1 q2
                exact absurd (List.mem_map.2 ⟨k, List.mem_range.2 hk, rfl⟩) hm
        obtain ⟨d', h1, h2⟩ := ih _ (out ++ (⟨name, .vec e sh, .vec a⟩ : Col V).cells) _ hrest hd2 hE2
        refine ⟨d', ?_, by simpa using h2⟩
        simp only [List.map_cons, expandCols, hdecl, Ty.iri, hall, Bool.false_eq_true, if_false, expandedCols_vec he hs]
        have hc : (⟨name, .vec e sh, .vec a⟩ : Col V).cells = ((List.range (shapeSize sh)).map (fun k => name ++ vecSuffix k)).zip a.flat := by
          simp [Col.cells, hlen]
        rw [← hc, h1]
        simp

/-! ### contraction -/

/-- The vector collected so far, if any, is complete and converts to these values. Proof device; nothing in /repo. -/
def Pending (temp : List V) (dt : Option Text) (vals : List (Val V)) : Prop :=
  (temp = [] ∧ vals = []) ∨ (temp ≠ [] ∧ ∃ a, convertVec temp dt = .ok a ∧ vals = [a])

theorem contract_scalar {d : DTs} {c : Text} (hc : PlainName c) (v : V) (rest : List ((DTs × Text) × V)) (out : List (Val V)) (temp : List V) (dt : Option Text)
    (vals : List (Val V)) (hp : Pending temp dt vals) : contractLoop (((d, c), v) :: rest) out temp dt = contractLoop rest (out ++ vals ++ [.sc v]) [] dt := by
  have hh : ∀ temp : List V, handleItem c v d temp dt = .ok (temp, dt, false) := by
    intro temp
    unfold handleItem
    rw [plain_not_suffix hc]
    rfl
  rw [contractLoop, hh]
  rcases hp with ⟨rfl, rfl⟩ | ⟨h1, a, h2, rfl⟩
  · simp only [bind, Except.bind, Bool.false_eq_true, if_false, if_true, hh, List.append_nil]
  · simp only [bind, Except.bind, Bool.false_eq_true, if_false, h1, h2, pure, Except.pure, hh]

/-- The elements of a vector from the k-th on. -/
theorem contract_elems {d : DTs} {c i : Text} (hd : d c = some (some i)) (rest : List ((DTs × Text) × V)) (out : List (Val V)) : ∀ (l : List V) (temp : List V) (dt : Option Text),
    (l = [] → dt = some i) →
    contractLoop (((List.range' temp.length l.length).zip l).map (fun x => ((d, c ++ vecSuffix x.1), x.2)) ++ rest) out temp dt = contractLoop rest out (temp ++ l) (some i) := by
  intro l
  induction l with
  | nil => intro temp dt h; simp [h rfl]
  | cons v l ih =>
    intro temp dt _
    have hh : handleItem (c ++ vecSuffix temp.length) v d temp dt = .ok (temp ++ [v], some i, true) := by
      unfold handleItem
      rw [elem_suffix]
      simp only [decide_true, if_true, List.length_append, Nat.add_sub_cancel, List.take_left, hd]
    simp only [List.length_cons, List.range'_succ, List.zip_cons_cons, List.map_cons, List.cons_append]
    rw [contractLoop, hh]
    simp only [bind, Except.bind, if_true]
    have := ih (temp ++ [v]) (some i) (fun _ => rfl)
    rw [List.length_append, List.length_singleton] at this
    rw [this, List.append_assoc]
    rfl

omit [Inhabited V] in
theorem range_zip (f : Nat → Text) (l : List V) (d : DTs) : (((List.range l.length).map f).zip l).map (fun x => ((d, x.1), x.2)) =
    ((List.range' 0 l.length).zip l).map (fun x => ((d, f x.1), x.2)) := by
  rw [List.range_eq_range', List.zip_map_left, List.map_map]
  rfl

theorem contract_vector {d : DTs} {c e : Text} {sh : List Nat} (hpos : 0 < shapeSize sh) (hd : d c = some (some (vecIri e sh)))
    {a : Nested V} (ha : HasShape sh a) (rest : List ((DTs × Text) × V)) (out : List (Val V)) (temp : List V) (dt : Option Text) (vals : List (Val V)) (hp : Pending temp dt vals) :
    contractLoop (((⟨c, .vec e sh, .vec a⟩ : Col V).cells).map (fun x => ((d, x.1), x.2)) ++ rest) out temp dt = contractLoop rest (out ++ vals) a.flat (some (vecIri e sh)) := by
  have hlen := flat_length sh a ha
  show contractLoop ((((List.range a.flat.length).map (fun k => c ++ vecSuffix k)).zip a.flat).map (fun x => ((d, x.1), x.2)) ++ rest) out temp dt = _
  rw [range_zip]
  rcases hp with ⟨rfl, rfl⟩ | ⟨h1, b, h2, rfl⟩
  · have := contract_elems hd rest out a.flat [] dt (fun h => by rw [h] at hlen; simp at hlen; omega)
    rw [List.append_nil]
    exact this
  · -- the first element does not continue the pending vector, so that is written first
    cases hf : a.flat with
    | nil => rw [hf] at hlen; simp at hlen; omega
    | cons v l =>
      have hn : temp.length ≠ 0 := by
        intro h; exact h1 (List.length_eq_zero_iff.1 h)
      have hh1 : handleItem (c ++ vecSuffix 0) v d temp dt = .ok (temp, dt, false) := by
        unfold handleItem
        rw [elem_suffix, decide_eq_false (fun h => hn h.symm)]
        rfl
      have hh2 : handleItem (c ++ vecSuffix 0) v d [] dt = .ok ([v], some (vecIri e sh), true) := by
        unfold handleItem
        rw [List.length_nil, elem_suffix]
        simp only [decide_true, if_true, List.length_append, Nat.add_sub_cancel, List.take_left, hd, List.nil_append]
      simp only [List.length_cons, List.range'_succ, List.zip_cons_cons, List.map_cons, List.cons_append]
      rw [contractLoop, hh1]
      simp only [bind, Except.bind, Bool.false_eq_true, if_false, h1, h2, pure, Except.pure, hh2, if_true]
      have := contract_elems hd rest (out ++ [b]) l [v] (some (vecIri e sh)) (fun _ => rfl)
      simpa using this

theorem contract_cols (rest : List ((DTs × Text) × V)) : ∀ (xs : List (DTs × Col V)) (out : List (Val V)) (temp : List V) (dt : Option Text) (vals : List (Val V)),
    (∀ x ∈ xs, x.2.Good x.1) → Pending temp dt vals →
    ∃ out' temp' dt' vals', contractLoop ((xs.map (fun x => x.2.cells.map (fun y => ((x.1, y.1), y.2)))).flatten ++ rest) out temp dt = contractLoop rest out' temp' dt' ∧
      Pending temp' dt' vals' ∧ out' ++ vals' = out ++ vals ++ xs.map (fun x => x.2.val) := by
  intro xs
  induction xs with
  | nil => intro out temp dt vals _ hp; exact ⟨out, temp, dt, vals, by simp, hp, by simp⟩
  | cons x xs ih =>
    intro out temp dt vals hg hp
    have hx := hg x List.mem_cons_self
    have hrest : ∀ y ∈ xs, y.2.Good y.1 := fun y hy => hg y (List.mem_cons_of_mem _ hy)
    obtain ⟨d, name, ty, val⟩ := x
    have hdecl := hx.declared
    have hty := hx.ty
    have hfits := hx.fits
    have hpl := hx.plain
    dsimp only at hdecl hty hfits hpl
    rw [List.map_cons, List.flatten_cons, List.append_assoc]
    cases ty with
    | scalar t =>
      cases val with
      | vec a => exact hfits.elim
      | sc v =>
        have h1 := contract_scalar hpl v ((xs.map (fun x => x.2.cells.map (fun y => ((x.1, y.1), y.2)))).flatten ++ rest) out temp dt vals hp (d := d)
        obtain ⟨o, t', dt', v', k1, k2, k3⟩ := ih (out ++ vals ++ [.sc v]) [] dt [] hrest (Or.inl ⟨rfl, rfl⟩)
        refine ⟨o, t', dt', v', ?_, k2, ?_⟩
        · show contractLoop (((d, name), v) :: ((xs.map (fun x => x.2.cells.map (fun y => ((x.1, y.1), y.2)))).flatten ++ rest)) out temp dt = _
          rw [h1, k1]
        · rw [k3]; simp
    | vec e sh =>
      cases val with
      | sc v => exact hfits.elim
      | vec a =>
        obtain ⟨he, hs, hpos⟩ := hty
        have h1 := contract_vector hpos hdecl hfits ((xs.map (fun x => x.2.cells.map (fun y => ((x.1, y.1), y.2)))).flatten ++ rest) out temp dt vals hp
        have hconv : convertVec a.flat (some (vecIri e sh)) = .ok (.vec a) := by
          unfold convertVec
          simp only [isVec_vecIri, if_true]
          rw [vector_iri_roundtrip e he sh hs]
          simp only [vector_roundtrip sh a hfits]
        have hne : a.flat ≠ [] := by
          intro h
          have := flat_length sh a hfits
          rw [h] at this
          simp at this
          omega
        obtain ⟨o, t', dt', v', k1, k2, k3⟩ := ih (out ++ vals) a.flat (some (vecIri e sh)) [.vec a] hrest (Or.inr ⟨hne, _, hconv, rfl⟩)
        refine ⟨o, t', dt', v', ?_, k2, ?_⟩
        · rw [h1, k1]
        · rw [k3]; simp

/-! ### the round trip -/

/-- A table of a query: its datatypes, and its columns with their values in the row. Specification; nothing in /repo. -/
structure Table (V : Type) where
  dts : DTs
  cols : List (Col V)

/-- The conversion `convert_to` of the values found in the database does not change them: they have their type. Specification; nothing in /repo. -/
def Typed (cv : Option Text → V → Except PyErr V) (x : Col V) : Prop := match x.ty, x.val with
  | .scalar dt, .sc v => cv dt v = .ok v
  | .vec e _, .vec a => ∀ v ∈ a.flat, cv (some e) v = .ok v
  | _, _ => True

theorem mapM_id {α : Type} (f : α → Except PyErr α) : ∀ l : List α, (∀ x ∈ l, f x = .ok x) → l.mapM f = .ok l := by
  intro l
  induction l with
  | nil => intro _; rfl
  | cons x xs ih =>
    intro h
    rw [List.mapM_cons, h x List.mem_cons_self, ih (fun y hy => h y (List.mem_cons_of_mem _ hy))]
    rfl

/-- **C36.** For a query over any number of tables with any scalar and vector columns: expand the columns and values of each table for the database, read the
expanded row back (column by column, with the expanded datatypes of its table) and contract it: the result is the original row. Partial: vectors without elements and
columns whose names end in three underscores and a number are excluded, see the findings below. -/
theorem vector_columns_roundtrip_partial (cv : Option Text → V → Except PyErr V) (ts : List (Table V)) (hgood : ∀ t ∈ ts, ∀ x ∈ t.cols, x.Good t.dts ∧ Typed cv x) :
    ∃ expanded : List (List (Text × V) × DTs),
      ts.mapM (fun t => expandCols t.dts (t.cols.map (fun x => (x.name, x.val))) ([], t.dts)) = .ok expanded ∧
      contractRow cv ((expanded.map (fun e => e.1.map (fun y => ((e.2, y.1), y.2)))).flatten) = .ok ((ts.map (fun t => t.cols.map Col.val)).flatten) := by
  -- expansion of each table
  have key : ∃ ds : List DTs, ts.mapM (fun t => expandCols t.dts (t.cols.map (fun x => (x.name, x.val))) ([], t.dts)) =
      .ok ((ts.zip ds).map (fun p => ((p.1.cols.map Col.cells).flatten, p.2))) ∧ ds.length = ts.length ∧ ∀ p ∈ ts.zip ds, Expanded p.1.dts p.1.cols p.2 := by
    replace hgood : ∀ t ∈ ts, ∀ x ∈ t.cols, x.Good t.dts := fun t ht x hx => (hgood t ht x hx).1
    clear cv
    induction ts with
    | nil => exact ⟨[], rfl, rfl, by simp⟩
    | cons t ts ih =>
      obtain ⟨ds, h1, h2, h3⟩ := ih (fun t' ht' => hgood t' (List.mem_cons_of_mem _ ht'))
      obtain ⟨d, k1, k2⟩ := expandCols_spec t.dts t.cols [] [] t.dts (hgood t List.mem_cons_self) (by simp) ⟨fun _ _ => rfl, by simp⟩
      refine ⟨d :: ds, ?_, by simp [h2], ?_⟩
      · rw [List.mapM_cons, k1, h1]; rfl
      · intro p hp
        rw [List.zip_cons_cons] at hp
        rcases List.mem_cons.1 hp with rfl | hp
        · simpa using k2
        · exact h3 p hp
  obtain ⟨ds, h1, h2, h3⟩ := key
  refine ⟨_, h1, ?_⟩
  -- all columns with the datatypes of their table
  let xs : List (DTs × Col V) := ((ts.zip ds).map (fun p => p.1.cols.map (fun x => (p.2, x)))).flatten
  have hmem : ∀ y ∈ xs, ∃ p ∈ ts.zip ds, y.1 = p.2 ∧ y.2 ∈ p.1.cols := by
    intro y hy
    obtain ⟨l, hl, hy⟩ := List.mem_flatten.1 hy
    obtain ⟨p, hp, rfl⟩ := List.mem_map.1 hl
    obtain ⟨x, hx, rfl⟩ := List.mem_map.1 hy
    exact ⟨p, hp, rfl, hx⟩
  have hgood' : ∀ y ∈ xs, y.2.Good y.1 ∧ Typed cv y.2 := by
    intro y hy
    obtain ⟨p, hp, e, hx⟩ := hmem y hy
    obtain ⟨g, ty⟩ := hgood p.1 (List.of_mem_zip hp).1 y.2 hx
    refine ⟨⟨g.plain, g.ty, ?_, g.fits⟩, ty⟩
    rw [e, (h3 p hp).plain _ g.plain]
    exact g.declared
  have hcells : (((ts.zip ds).map (fun p => ((p.1.cols.map Col.cells).flatten, p.2))).map (fun e => e.1.map (fun y => ((e.2, y.1), y.2)))).flatten =
      (xs.map (fun x => x.2.cells.map (fun y => ((x.1, y.1), y.2)))).flatten := by
    simp only [xs, List.map_map, List.map_flatten, Function.comp_def, List.flatten_flatten]
  have hvals : xs.map (fun x => x.2.val) = (ts.map (fun t => t.cols.map Col.val)).flatten := by
    simp only [xs, List.map_map, List.map_flatten, Function.comp_def]
    have : ∀ (ts : List (Table V)) (ds : List DTs), ds.length = ts.length → (ts.zip ds).map (fun p => p.1.cols.map Col.val) = ts.map (fun t => t.cols.map Col.val) := by
      intro ts
      induction ts with
      | nil => intro ds _; rfl
      | cons t ts ih =>
        intro ds h
        cases ds with
        | nil => simp at h
        | cons d ds => simp only [List.zip_cons_cons, List.map_cons]; rw [ih ds (by simpa using h)]
    rw [this ts ds h2]
  rw [hcells]
  unfold contractRow
  have hconv : (xs.map (fun x => x.2.cells.map (fun y => ((x.1, y.1), y.2)))).flatten.mapM (convertCell cv) = .ok (xs.map (fun x => x.2.cells.map (fun y => ((x.1, y.1), y.2)))).flatten := by
    apply mapM_id
    intro z hz
    obtain ⟨l, hl, hz⟩ := List.mem_flatten.1 hz
    obtain ⟨x, hx, rfl⟩ := List.mem_map.1 hl
    obtain ⟨cell, hcell, rfl⟩ := List.mem_map.1 hz
    obtain ⟨g, ty⟩ := hgood' x hx
    obtain ⟨p, hp, e, hxp⟩ := hmem x hx
    have hE := h3 p hp
    obtain ⟨d, name, t, val⟩ := x
    dsimp only at *
    cases t with
    | scalar dt =>
      cases val with
      | vec a => exact g.fits.elim
      | sc v =>
        simp only [Col.cells, List.mem_cons, List.not_mem_nil, or_false] at hcell
        subst hcell
        have h1 := g.declared
        have h2 : cv dt v = .ok v := ty
        simp only [Ty.iri] at h1
        simp only [convertCell, h1, h2]
    | vec el sh =>
      cases val with
      | sc v => exact g.fits.elim
      | vec a =>
        simp only [Col.cells] at hcell
        have hz := List.of_mem_zip hcell
        obtain ⟨k, hk, hkn⟩ := List.mem_map.1 hz.1
        have hl := hE.elem _ hxp el sh rfl k (by rw [← flat_length sh a g.fits]; exact List.mem_range.1 hk)
        rw [hkn, ← e] at hl
        have h2 : cv (some el) cell.2 = .ok cell.2 := ty _ hz.2
        simp only [convertCell, hl, h2]
  rw [hconv]
  obtain ⟨o, t', dt', v', k1, k2, k3⟩ := contract_cols [] xs [] [] none [] (fun x hx => (hgood' x hx).1) (Or.inl ⟨rfl, rfl⟩)
  rw [List.append_nil] at k1
  show contractLoop _ [] [] none = _
  rw [k1, ← hvals]
  simp only [List.nil_append] at k3
  rcases k2 with ⟨rfl, rfl⟩ | ⟨q1, a, q2, rfl⟩
  · rw [contractLoop, if_pos rfl, ← k3, List.append_nil]
  · rw [contractLoop, if_neg q1, q2, ← k3]
    rfl

/-! ### witnesses and findings -/

theorem plainName_short : ∀ c : Char, PlainName [c] := by
  intro c u k h
  have := congrArg List.length h
  rw [vecSuffix_eq] at this
  simp only [List.length_append, List.length_cons, List.length_nil] at this
  omega

/-- The row of a data table: subject, predicate, and a 2x2 vector; then a second table with a vector. -/
example : let dts : DTs := fun c => if c = ['s'] ∨ c = ['p'] then some none else if c = ['o'] then some (some (vecIri "INT".toList [2, 2])) else none
    let a : Nested Nat := .list [.list [.leaf 1, .leaf 2], .list [.leaf 3, .leaf 4]]
    let t : Table Nat := ⟨dts, [⟨['s'], .scalar none, .sc 7⟩, ⟨['o'], .vec "INT".toList [2, 2], .vec a⟩]⟩
    ∀ t' ∈ [t, t], ∀ x ∈ t'.cols, x.Good t'.dts ∧ Typed (fun _ v => .ok v) x := by
  intro dts a t t' ht x hx
  have ht : t' = t := by simpa using ht
  subst ht
  simp only [t, List.mem_cons, List.not_mem_nil, or_false] at hx
  rcases hx with rfl | rfl
  · exact ⟨⟨plainName_short _, fun i h => (by cases h), by simp [t, dts, Ty.iri], trivial⟩, rfl⟩
  · exact ⟨⟨plainName_short _, ⟨by decide, by decide, by decide⟩, by simp [t, dts, Ty.iri], by simp [Fits, HasShape, a]⟩, fun _ _ => rfl⟩

/-- Finding: a vector without elements has no column, so it is not read back: the row has one value instead of two. -/
theorem empty_vector_lost :
    let dts : DTs := fun c => if c = ['s'] then some none else if c = ['o'] then some (some (vecIri "INT".toList [0])) else none
    (do let e ← expandCols (V := Nat) dts [(['s'], .sc 7), (['o'], .vec (.list []))] ([], dts)
        contractRow (V := Nat) (fun _ v => .ok v) (e.1.map (fun y : Text × Nat => ((e.2, y.1), y.2)))).map List.length = .ok 1 := by
  decide +kernel

/-- Finding: a scalar column whose name ends like the first element of a vector cannot be read. -/
theorem misleading_column_name :
    let dts : DTs := fun c => if c = "x___0".toList then some none else none
    (do let e ← expandCols (V := Nat) dts [("x___0".toList, .sc 7)] ([], dts)
        contractRow (V := Nat) (fun _ v => .ok v) (e.1.map (fun y : Text × Nat => ((e.2, y.1), y.2)))).map List.length = .error .keyError := by
  decide +kernel

end Osp.Sql
