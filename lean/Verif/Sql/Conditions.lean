import Verif.Sql.Names
/-!
# Conditions as SQL with parameters (C49), strings in sqlite columns (C50)
-/
namespace Osp.Sql
variable {V : Type}

/-! ### model -/

/-- `values.update(sub_values)`. Python itself; models nothing in /repo. -/
def dictUpdate (d e : Text → Option V) : Text → Option V := fun k => (e k).or (d k)

/-- sqlite_session.py 174-218, the back quotes. -/
def quoted (t : Text) : Text := '`' :: t ++ ['`']

mutual
/-- `_get_condition_pattern`, sqlite_session.py:179-218: the pattern and the values bound to the parameters. -/
def condPattern (pre : Text) : Cond V → Text × (Text → Option V)
  | .eq t c v _ => (quoted t ++ '.' :: quoted c ++ "=:".toList ++ (pre ++ "_value".toList), fun k => if k = pre ++ "_value".toList then some v else none)
  | .join t1 c1 t2 c2 => (quoted t1 ++ '.' :: quoted c1 ++ " = ".toList ++ quoted t2 ++ '.' :: quoted c2, fun _ => none)
  | .and cs => if cs.isEmpty then (['1'], fun _ => none) else condLoop pre 0 [] (fun _ => none) cs
/-- The loop over the conditions of an AndCondition, sqlite_session.py:206-216. -/
def condLoop (pre : Text) (i : Nat) (pattern : Text) (values : Text → Option V) : List (Cond V) → Text × (Text → Option V)
  | [] => (pattern, values)
  | c :: cs =>
    let sub := condPattern (pre ++ dec i) c
    condLoop pre (i + 1) ((if pattern.isEmpty then pattern else pattern ++ " AND ".toList) ++ sub.1) (dictUpdate values sub.2) cs
end

/-! ### specification -/

/-- One comparison in the WHERE clause. Specification; nothing in /repo. -/
inductive Part where
  | eq (table column param : Text)
  | join (table1 column1 table2 column2 : Text)
  | one
deriving DecidableEq

/-- The SQL text of a comparison. Specification; nothing in /repo. -/
def Part.render : Part → Text
  | .eq t c p => quoted t ++ '.' :: quoted c ++ "=:".toList ++ p
  | .join t1 c1 t2 c2 => quoted t1 ++ '.' :: quoted c1 ++ " = ".toList ++ quoted t2 ++ '.' :: quoted c2
  | .one => ['1']

/-- Specification; nothing in /repo. -/
def Part.param : Part → Option Text
  | .eq _ _ p => some p
  | _ => none

/-- What sqlite evaluates: the parameter stands for the value bound to it. Specification; nothing in /repo. -/
def Part.holds (row : Text → Text → V) (values : Text → Option V) : Part → Prop
  | .eq t c p => values p = some (row t c)
  | .join t1 c1 t2 c2 => row t1 c1 = row t2 c2
  | .one => True

mutual
/-- What the condition means. Specification; nothing in /repo. -/
def Cond.holds (row : Text → Text → V) : Cond V → Prop
  | .eq t c v _ => row t c = v
  | .join t1 c1 t2 c2 => row t1 c1 = row t2 c2
  | .and cs => Cond.holdsL row cs
/-- Specification; nothing in /repo. -/
def Cond.holdsL (row : Text → Text → V) : List (Cond V) → Prop
  | [] => True
  | c :: cs => c.holds row ∧ Cond.holdsL row cs
end

/-- Specification; nothing in /repo. -/
def Cond.isAnd : Cond V → Bool
  | .and _ => true
  | _ => false

mutual
/-- At every And there are at most ten conditions, or none of the conditions is an And itself. Specification; nothing in /repo. -/
def Cond.plain : Cond V → Bool
  | .and cs => (cs.length ≤ 10 || cs.all (fun c => !c.isAnd)) && Cond.plainL cs
  | _ => true
/-- Specification; nothing in /repo. -/
def Cond.plainL : List (Cond V) → Bool
  | [] => true
  | c :: cs => c.plain && Cond.plainL cs
end

mutual
/-- The same condition with other values. Specification; nothing in /repo. -/
def Cond.mapV {W : Type} (f : V → W) : Cond V → Cond W
  | .eq t c v d => .eq t c (f v) d
  | .join t1 c1 t2 c2 => .join t1 c1 t2 c2
  | .and cs => .and (Cond.mapL f cs)
/-- Specification; nothing in /repo. -/
def Cond.mapL {W : Type} (f : V → W) : List (Cond V) → List (Cond W)
  | [] => []
  | c :: cs => c.mapV f :: Cond.mapL f cs
end

/-! ### proofs -/

/-- A comparison with the number of the parameter after the prefix and the value meant. Proof device; nothing in /repo. -/
inductive Leaf (V : Type) where
  | eq (table column num : Text) (v : V)
  | join (table1 column1 table2 column2 : Text)
  | one

/-- Proof device; nothing in /repo. -/
def Leaf.under (n : Text) : Leaf V → Leaf V
  | .eq t c k v => .eq t c (n ++ k) v
  | l => l

/-- Proof device; nothing in /repo. -/
def Leaf.part (pre : Text) : Leaf V → Part
  | .eq t c k _ => .eq t c (pre ++ k ++ "_value".toList)
  | .join t1 c1 t2 c2 => .join t1 c1 t2 c2
  | .one => .one

/-- Proof device; nothing in /repo. -/
def Leaf.num : Leaf V → Option Text
  | .eq _ _ k _ => some k
  | _ => none

/-- Proof device; nothing in /repo. -/
def Leaf.means (row : Text → Text → V) : Leaf V → Prop
  | .eq t c _ v => row t c = v
  | .join t1 c1 t2 c2 => row t1 c1 = row t2 c2
  | .one => True

/-- Proof device; nothing in /repo. -/
def Leaf.bind (pre : Text) (k : Text) : Leaf V → Option V
  | .eq _ _ n v => if k = pre ++ n ++ "_value".toList then some v else none
  | _ => none

mutual
/-- Proof device; nothing in /repo. -/
def leaves : Cond V → List (Leaf V)
  | .eq t c v _ => [.eq t c [] v]
  | .join t1 c1 t2 c2 => [.join t1 c1 t2 c2]
  | .and cs => if cs.isEmpty then [.one] else leavesL 0 cs
/-- Proof device; nothing in /repo. -/
def leavesL (i : Nat) : List (Cond V) → List (Leaf V)
  | [] => []
  | c :: cs => (leaves c).map (Leaf.under (dec i)) ++ leavesL (i + 1) cs
end

/-- Proof device; nothing in /repo. -/
def bindAll (pre : Text) : List (Leaf V) → Text → Option V
  | [], _ => none
  | l :: ls, k => (bindAll pre ls k).or (l.bind pre k)

theorem bindAll_append (pre : Text) (a b : List (Leaf V)) (k : Text) : bindAll pre (a ++ b) k = (bindAll pre b k).or (bindAll pre a k) := by
  induction a with
  | nil => simp [bindAll]
  | cons x xs ih => simp only [List.cons_append, bindAll, ih, Option.or_assoc]

theorem part_under (pre n : Text) (l : Leaf V) : (l.under n).part pre = l.part (pre ++ n) := by
  cases l <;> simp [Leaf.under, Leaf.part]

theorem bind_under (pre n k : Text) (l : Leaf V) : (l.under n).bind pre k = l.bind (pre ++ n) k := by
  cases l <;> simp [Leaf.under, Leaf.bind]

theorem bindAll_under (pre n : Text) (ls : List (Leaf V)) (k : Text) : bindAll pre (ls.map (Leaf.under n)) k = bindAll (pre ++ n) ls k := by
  induction ls with
  | nil => rfl
  | cons l ls ih => simp only [List.map_cons, bindAll, ih, bind_under]

theorem means_under (row : Text → Text → V) (n : Text) (l : Leaf V) : (l.under n).means row ↔ l.means row := by
  cases l <;> rfl

theorem leaves_ne_nil (c : Cond V) : leaves c ≠ [] := by
  cases c with
  | eq => simp [leaves]
  | join => simp [leaves]
  | and cs =>
    cases cs with
    | nil => simp [leaves]
    | cons c cs =>
      rw [leaves]
      simp only [List.isEmpty_cons, Bool.false_eq_true, if_false, leavesL]
      have := leaves_ne_nil c
      simp [this]

/-- Proof device; nothing in /repo. -/
def text (pre : Text) (ls : List (Leaf V)) : Text := joinWith " AND ".toList (ls.map (fun l => (l.part pre).render))

theorem render_ne_nil (p : Part) : p.render ≠ [] := by
  cases p <;> simp [Part.render, quoted]

theorem joinWith_ne_nil {sep : Text} {xs : List Text} (h : xs ≠ []) (h' : ∀ x ∈ xs, x ≠ []) : joinWith sep xs ≠ [] := by
  cases xs with
  | nil => exact absurd rfl h
  | cons x xs =>
    have := h' x List.mem_cons_self
    cases xs with
    | nil => exact this
    | cons y ys => simp [joinWith, this]

theorem joinWith_append {sep : Text} : ∀ {xs ys : List Text}, xs ≠ [] → ys ≠ [] → joinWith sep (xs ++ ys) = joinWith sep xs ++ sep ++ joinWith sep ys := by
  intro xs
  induction xs with
  | nil => intro ys h; exact absurd rfl h
  | cons x xs ih =>
    intro ys _ hy
    cases xs with
    | nil =>
      cases ys with
      | nil => exact absurd rfl hy
      | cons y ys => rfl
    | cons z zs =>
      show x ++ sep ++ joinWith sep ((z :: zs) ++ ys) = _
      rw [ih (by simp) hy]
      simp [joinWith]

theorem text_ne_nil {pre : Text} {ls : List (Leaf V)} (h : ls ≠ []) : text pre ls ≠ [] := by
  apply joinWith_ne_nil
  · simpa using h
  · intro x hx
    obtain ⟨l, _, rfl⟩ := List.mem_map.1 hx
    exact render_ne_nil _

theorem text_under (pre n : Text) (ls : List (Leaf V)) : text pre (ls.map (Leaf.under n)) = text (pre ++ n) ls := by
  unfold text
  rw [List.map_map]
  congr 1
  apply List.map_congr_left
  intro l _
  simp only [Function.comp, part_under]

mutual
theorem condPattern_eq (pre : Text) (c : Cond V) : condPattern pre c = (text pre (leaves c), bindAll pre (leaves c)) := by
  match c with
  | .eq t c v d =>
    simp only [condPattern, leaves, text, List.map_cons, List.map_nil, joinWith, Leaf.part, Part.render, List.append_nil]
    congr 1
    funext k
    simp [bindAll, Leaf.bind]
  | .join t1 c1 t2 c2 =>
    simp only [condPattern, leaves, text, List.map_cons, List.map_nil, joinWith, Leaf.part, Part.render]
    congr 1
  | .and cs =>
    rw [condPattern, leaves]
    split
    · congr 1
    · rename_i h
      rw [condLoop_eq pre 0 [] [] (fun _ => none) cs (by simp [text, joinWith]) (by rfl)]
      rfl
theorem condLoop_eq (pre : Text) (i : Nat) (acc : List (Leaf V)) (pattern : Text) (values : Text → Option V) (cs : List (Cond V))
    (hp : pattern = text pre acc) (hv : values = bindAll pre acc) :
    condLoop pre i pattern values cs = (text pre (acc ++ leavesL i cs), bindAll pre (acc ++ leavesL i cs)) := by
  match cs with
  | [] => simp [condLoop, leavesL, hp, hv]
  | c :: cs =>
    rw [condLoop, condPattern_eq (pre ++ dec i) c]
    rw [condLoop_eq pre (i + 1) (acc ++ (leaves c).map (Leaf.under (dec i))) _ _ cs]
    · simp only [leavesL, List.append_assoc]
    · simp only [hp]
      have hne : (leaves c).map (Leaf.under (dec i)) ≠ [] := by simpa using leaves_ne_nil c
      cases acc with
      | nil => rw [← text_under]; rfl
      | cons a as =>
        have : (text pre (a :: as)).isEmpty = false := by
          cases h : text pre (a :: as) with
          | nil => exact absurd h (text_ne_nil (by simp))
          | cons => rfl
        rw [this]
        simp only [Bool.false_eq_true, if_false]
        rw [← text_under]
        unfold text
        rw [List.map_append (l₁ := a :: as), joinWith_append (by simp) (by simpa using hne)]
    · subst hv
      funext k
      rw [bindAll_append, bindAll_under]
      rfl
end

mutual
theorem leaves_means (row : Text → Text → V) (c : Cond V) : (∀ l ∈ leaves c, l.means row) ↔ c.holds row := by
  match c with
  | .eq t c v d => simp [leaves, Leaf.means, Cond.holds]
  | .join t1 c1 t2 c2 => simp [leaves, Leaf.means, Cond.holds]
  | .and cs =>
    rw [leaves, Cond.holds]
    split
    · rename_i h
      cases cs with
      | nil => simp [Leaf.means, Cond.holdsL]
      | cons => cases h
    · exact leavesL_means row 0 cs
theorem leavesL_means (row : Text → Text → V) (i : Nat) (cs : List (Cond V)) : (∀ l ∈ leavesL i cs, l.means row) ↔ Cond.holdsL row cs := by
  match cs with
  | [] => simp [leavesL, Cond.holdsL]
  | c :: cs =>
    rw [leavesL, Cond.holdsL, List.forall_mem_append, leavesL_means row (i + 1) cs, List.forall_mem_map]
    have := leaves_means row c
    simp only [means_under]
    rw [this]
end

/-! names -/

/-- Proof device; nothing in /repo. -/
def nums (ls : List (Leaf V)) : List Text := ls.filterMap Leaf.num

theorem nums_nil : nums ([] : List (Leaf V)) = [] := rfl
theorem nums_eq (t c k : Text) (v : V) (ls : List (Leaf V)) : nums (.eq t c k v :: ls) = k :: nums ls := rfl
theorem nums_join (t c t' c' : Text) (ls : List (Leaf V)) : nums (.join t c t' c' :: ls) = nums ls := rfl
theorem nums_one (ls : List (Leaf V)) : nums (.one :: ls) = nums ls := rfl

theorem nodup_map_inj {α β : Type} {f : α → β} (inj : ∀ {a b}, f a = f b → a = b) {l : List α} (h : l.Nodup) : (l.map f).Nodup := by
  rw [List.Nodup, List.pairwise_map]
  exact h.imp (fun hne e => hne (inj e))

theorem num_under (n : Text) (l : Leaf V) : (l.under n).num = l.num.map (n ++ ·) := by
  cases l <;> rfl

theorem nums_under (n : Text) (ls : List (Leaf V)) : nums (ls.map (Leaf.under n)) = (nums ls).map (n ++ ·) := by
  induction ls with
  | nil => rfl
  | cons l ls ih =>
    simp only [nums, List.map_cons] at ih ⊢
    cases h : l.num with
    | none =>
      rw [List.filterMap_cons_none h, List.filterMap_cons_none (by rw [num_under, h]; rfl)]
      exact ih
    | some k =>
      rw [List.filterMap_cons_some h, List.filterMap_cons_some (by rw [num_under, h]; rfl)]
      rw [List.map_cons, ← ih]

theorem nums_append (a b : List (Leaf V)) : nums (a ++ b) = nums a ++ nums b := by simp [nums]

/-- Every number in `leavesL i cs` begins with the number of one of the conditions. -/
theorem nums_leavesL : ∀ (cs : List (Cond V)) (i : Nat) (k : Text), k ∈ nums (leavesL i cs) → ∃ j c m, cs[j]? = some c ∧ m ∈ nums (leaves c) ∧ k = dec (i + j) ++ m := by
  intro cs
  induction cs with
  | nil => intro i k h; simp [leavesL, nums] at h
  | cons c cs ih =>
    intro i k h
    rw [leavesL, nums_append, nums_under] at h
    rcases List.mem_append.1 h with h | h
    · obtain ⟨m, hm, rfl⟩ := List.mem_map.1 h
      exact ⟨0, c, m, rfl, hm, rfl⟩
    · obtain ⟨j, c', m, h1, h2, h3⟩ := ih (i + 1) k h
      exact ⟨j + 1, c', m, by simpa using h1, h2, by rw [h3]; congr 2; omega⟩

theorem nums_not_and {c : Cond V} (h : c.isAnd = false) : ∀ k ∈ nums (leaves c), k = [] := by
  cases c with
  | eq => simp [leaves, nums, Leaf.num]
  | join => simp [leaves, nums, Leaf.num]
  | and => cases h

theorem dec_small {n : Nat} (h : n < 10) : dec n = [digitChar n] := by
  rw [dec, dif_pos h]

mutual
theorem nums_nodup (c : Cond V) (h : c.plain = true) : (nums (leaves c)).Nodup := by
  match c with
  | .eq t c v d => simp [leaves, nums_nil, nums_eq]
  | .join t1 c1 t2 c2 => simp [leaves, nums_nil, nums_join]
  | .and cs =>
    rw [leaves]
    rw [Cond.plain, Bool.and_eq_true, Bool.or_eq_true] at h
    split
    · simp [nums_one, nums_nil]
    · apply numsL_nodup 0 cs h.2
      rcases h.1 with h1 | h1
      · left; simpa using h1
      · right
        intro c hc
        have := List.all_eq_true.1 h1 c hc
        simpa using this
theorem numsL_nodup (i : Nat) (cs : List (Cond V)) (h : Cond.plainL cs = true) (h' : i + cs.length ≤ 10 ∨ ∀ c ∈ cs, c.isAnd = false) : (nums (leavesL i cs)).Nodup := by
  match cs with
  | [] => simp [leavesL, nums]
  | c :: cs =>
    rw [Cond.plainL, Bool.and_eq_true] at h
    rw [leavesL, nums_append, nums_under, List.nodup_append]
    refine ⟨?_, ?_, ?_⟩
    · exact nodup_map_inj (fun e => List.append_cancel_left e) (nums_nodup c h.1)
    · apply numsL_nodup (i + 1) cs h.2
      rcases h' with h' | h'
      · left; simp only [List.length_cons] at h'; omega
      · right; exact fun c hc => h' c (List.mem_cons_of_mem _ hc)
    · intro a ha b hb he
      subst he
      obtain ⟨m, hm, rfl⟩ := List.mem_map.1 ha
      obtain ⟨j, c', m', h1, h2, h3⟩ := nums_leavesL cs (i + 1) _ hb
      rcases h' with h' | h'
      · have hj : j < cs.length := (List.getElem?_eq_some_iff.1 h1).1
        simp only [List.length_cons] at h'
        rw [dec_small (by omega), dec_small (n := i + 1 + j) (by omega)] at h3
        simp only [List.cons_append, List.nil_append, List.cons.injEq] at h3
        have d1 := (digit_facts i (by omega)).1
        have d2 := (digit_facts (i + 1 + j) (by omega)).1
        rw [h3.1, d2] at d1
        injection d1 with d1
        omega
      · rw [nums_not_and (h' c List.mem_cons_self) m hm, nums_not_and (h' c' (List.mem_cons_of_mem _ (List.mem_of_getElem? h1))) m' h2, List.append_nil, List.append_nil] at h3
        have := dec_injective h3
        omega
end

theorem bindAll_not_mem {pre n : Text} : ∀ {ls : List (Leaf V)}, n ∉ nums ls → bindAll pre ls (pre ++ n ++ "_value".toList) = none := by
  intro ls
  induction ls with
  | nil => intro _; rfl
  | cons l ls ih =>
    intro h
    cases l with
    | eq t c k v =>
      rw [nums_eq, List.mem_cons, not_or] at h
      have : ¬ (pre ++ n ++ "_value".toList = pre ++ k ++ "_value".toList) := by
        intro e
        exact h.1 (List.append_cancel_left (List.append_cancel_right e))
      rw [bindAll, ih h.2, Leaf.bind, if_neg this]
      rfl
    | join => rw [nums_join] at h; rw [bindAll, ih h]; rfl
    | one => rw [nums_one] at h; rw [bindAll, ih h]; rfl

theorem bindAll_mem {pre : Text} : ∀ {ls : List (Leaf V)}, (nums ls).Nodup → ∀ {t c n v}, Leaf.eq t c n v ∈ ls → bindAll pre ls (pre ++ n ++ "_value".toList) = some v := by
  intro ls
  induction ls with
  | nil => intro _ t c n v h; simp at h
  | cons l ls ih =>
    intro hn t c n v h
    rcases List.mem_cons.1 h with h | h
    · subst h
      rw [nums_eq, List.nodup_cons] at hn
      rw [bindAll, bindAll_not_mem hn.1, Leaf.bind, if_pos rfl]
      rfl
    · have hn' : (nums ls).Nodup := by
        cases hl : l.num with
        | none => rwa [nums, List.filterMap_cons_none hl] at hn
        | some k => rw [nums, List.filterMap_cons_some hl, List.nodup_cons] at hn; exact hn.2
      rw [bindAll, ih hn' h]
      rfl

/-! ### C49 -/

theorem params_eq (pre : Text) (ls : List (Leaf V)) : (ls.map (Leaf.part pre)).filterMap Part.param = (nums ls).map (fun k => pre ++ k ++ "_value".toList) := by
  induction ls with
  | nil => rfl
  | cons l ls ih =>
    cases l with
    | eq t c k v => exact congrArg _ ih
    | join => exact ih
    | one => exact ih

/-- **C49.** The WHERE clause is a list of comparisons joined by AND; every value is passed as a parameter, the parameters are pairwise distinct, and with the values bound
to them the clause holds for a row exactly if the condition does. Partial: for conditions in which an And of more than ten conditions has no And among them;
see `nested_conditions_collide` for the others. -/
theorem condition_pattern_partial (pre : Text) (c : Cond V) (h : c.plain = true) :
    ∃ parts : List Part, (condPattern pre c).1 = joinWith " AND ".toList (parts.map Part.render) ∧ (parts.filterMap Part.param).Nodup ∧
      ∀ row : Text → Text → V, (∀ p ∈ parts, p.holds row (condPattern pre c).2) ↔ c.holds row := by
  refine ⟨(leaves c).map (Leaf.part pre), ?_, ?_, ?_⟩
  · rw [condPattern_eq, text, List.map_map]; rfl
  · rw [params_eq]
    exact nodup_map_inj (fun e => List.append_cancel_left (List.append_cancel_right e)) (nums_nodup c h)
  · intro row
    rw [← leaves_means row c, condPattern_eq, List.forall_mem_map]
    apply forall_congr'
    intro l
    apply forall_congr'
    intro hl
    cases l with
    | eq t col n v =>
      simp only [Leaf.part, Part.holds, Leaf.means]
      rw [bindAll_mem (nums_nodup c h) hl, Option.some.injEq]
      exact eq_comm
    | join => rfl
    | one => rfl

mutual
theorem leaves_map {W : Type} (pre : Text) (f : V → W) (c : Cond V) : (leaves (c.mapV f)).map (Leaf.part pre) = (leaves c).map (Leaf.part pre) := by
  match c with
  | .eq t c v d => rfl
  | .join t1 c1 t2 c2 => rfl
  | .and cs =>
    rw [Cond.mapV, leaves, leaves]
    cases cs with
    | nil => rfl
    | cons c cs =>
      rw [if_neg (by simp [Cond.mapL]), if_neg (by simp)]
      exact leavesL_map pre 0 f (c :: cs)
theorem leavesL_map {W : Type} (pre : Text) (i : Nat) (f : V → W) (cs : List (Cond V)) : (leavesL i (Cond.mapL f cs)).map (Leaf.part pre) = (leavesL i cs).map (Leaf.part pre) := by
  match cs with
  | [] => rfl
  | c :: cs =>
    rw [Cond.mapL, leavesL, leavesL, List.map_append, List.map_append, leavesL_map pre (i + 1) f cs]
    congr 1
    rw [List.map_map, List.map_map]
    have e : ∀ {U : Type} (l : List (Leaf U)), l.map (Leaf.part pre ∘ Leaf.under (dec i)) = l.map (Leaf.part (pre ++ dec i)) :=
      fun l => List.map_congr_left (fun x _ => part_under pre (dec i) x)
    rw [e, e]
    exact leaves_map (pre ++ dec i) f c
end

/-- **C49.** The text of the statement does not depend on the values in the condition: no value can become SQL. -/
theorem pattern_without_values {W : Type} (pre : Text) (f : V → W) (c : Cond V) : (condPattern pre (c.mapV f)).1 = (condPattern pre c).1 := by
  have e : ∀ {U : Type} (l : List (Leaf U)), text pre l = joinWith " AND ".toList ((l.map (Leaf.part pre)).map Part.render) := by
    intro U l
    rw [text, List.map_map]; rfl
  rw [condPattern_eq, condPattern_eq]
  show text pre _ = text pre _
  rw [e, e, leaves_map]

/-- Conditions the library builds itself: a few comparisons, and one vector compared column by column. -/
example : (Cond.and [.eq "a".toList "s".toList 1 none, .join "a".toList "o".toList "b".toList "i".toList,
    .and ((List.range 30).map (fun k => .eq "d".toList (vecSuffix k) k none))] : Cond Nat).plain = true := by decide +kernel

/-- Finding: with eleven conditions of which the second is an And, two comparisons share the parameter `cond10_value` and the first one is compared to the wrong value:
a row that meets the condition does not meet the clause. -/
theorem nested_conditions_collide :
    let col : Nat → Cond Nat := fun k => .eq "t".toList (dec k) k none
    let c : Cond Nat := .and [col 0, .and [col 100], col 2, col 3, col 4, col 5, col 6, col 7, col 8, col 9, col 10]
    ∃ row : Text → Text → Nat, c.holds row ∧ ¬ ∃ parts : List Part, (condPattern "cond".toList c).1 = joinWith " AND ".toList (parts.map Part.render) ∧
      Part.eq "t".toList "100".toList "cond10_value".toList ∈ parts ∧ ∀ p ∈ parts, p.holds row (condPattern "cond".toList c).2 := by
  intro col c
  refine ⟨fun _ k => digitsValue k 0, ?_, ?_⟩
  · simp only [c, col, Cond.holds, Cond.holdsL, digitsValue_dec, and_true]
  · rintro ⟨parts, _, hm, h⟩
    have := h _ hm
    simp only [Part.holds] at this
    revert this
    decide +kernel

/-- In that clause the comparison of column 100 does use this parameter, and the last comparison too. -/
example : let col : Nat → Cond Nat := fun k => .eq "t".toList (dec k) k none
    (condPattern "cond".toList (.and [col 0, .and [col 100], col 2, col 3, col 4, col 5, col 6, col 7, col 8, col 9, col 10])).1 =
      ("`t`.`0`=:cond0_value AND `t`.`100`=:cond10_value AND `t`.`2`=:cond2_value AND `t`.`3`=:cond3_value AND `t`.`4`=:cond4_value AND `t`.`5`=:cond5_value" ++
      " AND `t`.`6`=:cond6_value AND `t`.`7`=:cond7_value AND `t`.`8`=:cond8_value AND `t`.`9`=:cond9_value AND `t`.`10`=:cond10_value").toList := by
  decide +kernel

end Osp.Sql
