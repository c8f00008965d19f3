import Verif.Yaml.Spec
/-!
# C55: the validator accepts exactly the conforming documents, for every table of formats
-/
namespace Osp.Yaml

theorem each_ok {α : Type} (f : α → Res) (l : List α) : each f l = .ok () ↔ ∀ x ∈ l, f x = .ok () := by
  induction l with
  | nil => exact ⟨fun _ x hx => (by cases hx), fun _ => rfl⟩
  | cons x l ih =>
    rw [each]
    cases h : f x with
    | ok u => simp only [ih, List.mem_cons, forall_eq_or_imp, h, true_and]
    | error e => simp [h]

theorem each_error {α : Type} {f : α → Res} {l : List α} {e : PyErr} (h : each f l = .error e) : ∃ x ∈ l, f x = .error e := by
  induction l with
  | nil => cases h
  | cons x l ih =>
    rw [each] at h
    cases hx : f x with
    | ok u =>
      rw [hx] at h
      obtain ⟨y, hy, hh⟩ := ih h
      exact ⟨y, List.mem_cons_of_mem _ hy, hh⟩
    | error e' => rw [hx] at h; cases h; exact ⟨x, List.mem_cons_self, hx⟩

/-- If all alternatives end with or without a ValueError: at most `ps.length` fail, and all of them iff none fits. -/
theorem tryAll_ok (v : Pat → Res) : ∀ (ps : List Pat) (k : Nat) {m : Nat}, tryAll v ps k = .ok m →
    m ≤ k + ps.length ∧ (m = k + ps.length ↔ ∀ p ∈ ps, v p = .error .valueError) ∧ (∀ p ∈ ps, v p = .ok () ∨ v p = .error .valueError) := by
  intro ps
  induction ps with
  | nil => intro k m h; cases h; exact ⟨Nat.le_refl _, ⟨fun _ p hp => (by cases hp), fun _ => rfl⟩, fun p hp => (by cases hp)⟩
  | cons p ps ih =>
    intro k m h
    rw [tryAll] at h
    cases hv : v p with
    | ok u =>
      rw [hv] at h
      obtain ⟨h1, h2, h3⟩ := ih k h
      refine ⟨by simp only [List.length_cons]; omega, ?_, ?_⟩
      · constructor
        · intro hm; simp only [List.length_cons] at hm; omega
        · intro hall; rw [hall p List.mem_cons_self] at hv; cases hv
      · intro q hq
        rcases List.mem_cons.1 hq with rfl | hq
        · exact Or.inl hv
        · exact h3 q hq
    | error e =>
      by_cases he : e = .valueError
      · subst he
        rw [hv] at h
        obtain ⟨h1, h2, h3⟩ := ih (k + 1) h
        refine ⟨by simp only [List.length_cons]; omega, ?_, ?_⟩
        · rw [List.length_cons, show k + (ps.length + 1) = k + 1 + ps.length from by omega, h2]
          simp only [List.mem_cons, forall_eq_or_imp, hv, true_and]
        · intro q hq
          rcases List.mem_cons.1 hq with rfl | hq
          · exact Or.inr hv
          · exact h3 q hq
      · rw [hv] at h
        cases e <;> first | (exact absurd rfl he) | cases h

theorem tryAll_total (v : Pat → Res) : ∀ (ps : List Pat) (k : Nat), (∀ p ∈ ps, v p = .ok () ∨ v p = .error .valueError) → ∃ m, tryAll v ps k = .ok m := by
  intro ps
  induction ps with
  | nil => intro k _; exact ⟨k, rfl⟩
  | cons p ps ih =>
    intro k h
    rw [tryAll]
    rcases h p List.mem_cons_self with hv | hv <;> rw [hv] <;> exact ih _ (fun q hq => h q (List.mem_cons_of_mem _ hq))

theorem tryAll_error (v : Pat → Res) : ∀ (ps : List Pat) (k : Nat) {e : PyErr}, tryAll v ps k = .error e → e ≠ .valueError := by
  intro ps
  induction ps with
  | nil => intro k e h; cases h
  | cons p ps ih =>
    intro k e h
    rw [tryAll] at h
    cases hv : v p with
    | ok u => rw [hv] at h; exact ih k h
    | error e' =>
      rw [hv] at h
      by_cases he : e' = .valueError
      · subst he; exact ih _ h
      · cases e' <;> first | (exact absurd rfl he) | (cases h; exact he)

theorem isKey_iff (k : Text) (y : Yaml) : isKey k y = true ↔ y = .str k := by
  cases y <;> simp [isKey]

theorem allowed_ok (ks : List (Text × Pat)) (e : Yaml × Yaml) : allowed ks e = .ok () ↔ ∃ kp ∈ ks, e.1 = .str (bare kp.1) := by
  have : (ks.any (fun kp => isKey (bare kp.1) e.1)) = true ↔ ∃ kp ∈ ks, e.1 = .str (bare kp.1) := by
    simp only [List.any_eq_true, isKey_iff]
  rw [← this, allowed]
  split
  · rename_i h; simp [h]
  · rename_i h; simp [h]

theorem allowed_error {ks : List (Text × Pat)} {e : Yaml × Yaml} {x : PyErr} (h : allowed ks e = .error x) : x = .valueError := by
  unfold allowed at h
  split at h
  · cases h
  · cases h; rfl

/-- Whatever the limit: what is accepted conforms, and what is refused with a ValueError does not. -/
theorem validate_sound (T : Table) : ∀ (n : Nat) (doc : Yaml) (p : Pat),
    (validate T n doc p = .ok () → Conforms T doc p) ∧ (validate T n doc p = .error .valueError → ¬ Conforms T doc p) := by
  intro n
  induction n with
  | zero => intro doc p; exact ⟨fun h => (by cases h), fun h => (by cases h)⟩
  | succ n ih =>
    intro doc p
    cases p with
    | any => exact ⟨fun _ => .any, fun h => (by cases h)⟩
    | str =>
      simp only [validate]
      cases doc <;> simp only [isStr] <;> first
        | exact ⟨fun _ => .str, fun h => (by cases h)⟩
        | exact ⟨fun h => (by cases h), fun _ hc => (by cases hc)⟩
    | bool =>
      simp only [validate]
      split
      · rename_i h; exact ⟨fun _ => .bool h, fun h => (by cases h)⟩
      · rename_i h; exact ⟨fun h => (by cases h), fun _ hc => (by cases hc; rename_i h'; exact h h')⟩
    | regex r =>
      simp only [validate]
      cases ht : doc.text with
      | none => exact ⟨fun h => (by cases h), fun _ hc => (by cases hc with | regex h _ => rw [h] at ht; cases ht)⟩
      | some t =>
        simp only
        split
        · rename_i h; exact ⟨fun _ => .regex ht ((matches_iff r t).1 h), fun h => (by cases h)⟩
        · rename_i h
          refine ⟨fun h => (by cases h), fun _ hc => ?_⟩
          cases hc with
          | regex h' hm => rw [h'] at ht; cases ht; exact h ((matches_iff r _).2 hm)
    | items p =>
      simp only [validate]
      cases doc with
      | list l =>
        simp only
        constructor
        · intro h
          exact .items (fun x hx => (ih x p).1 ((each_ok _ l).1 h x hx))
        · intro h hc
          obtain ⟨x, hx, hv⟩ := each_error h
          cases hc with
          | items hc => exact (ih x p).2 hv (hc x hx)
      | _ => exact ⟨fun h => (by cases h), fun _ hc => (by cases hc)⟩
    | entries k v =>
      simp only [validate]
      cases doc with
      | dict l =>
        simp only
        constructor
        · intro h
          have hall := (each_ok _ l).1 h
          have key : ∀ e ∈ l, validate T n e.1 k = .ok () ∧ validate T n e.2 v = .ok () := by
            intro e he
            have := hall e he
            cases hk : validate T n e.1 k with
            | ok u => rw [hk] at this; exact ⟨rfl, this⟩
            | error x => rw [hk] at this; cases this
          exact .entries (fun e he => (ih e.1 k).1 (key e he).1) (fun e he => (ih e.2 v).1 (key e he).2)
        · intro h hc
          obtain ⟨e, he, hv⟩ := each_error h
          cases hc with
          | entries h1 h2 =>
            cases hk : validate T n e.1 k with
            | ok u => rw [hk] at hv; exact (ih e.2 v).2 hv (h2 e he)
            | error x => rw [hk] at hv; cases hv; exact (ih e.1 k).2 hk (h1 e he)
      | _ => exact ⟨fun h => (by cases h), fun _ hc => (by cases hc)⟩
    | named f =>
      simp only [validate]
      cases hf : T.find f with
      | none =>
        refine ⟨fun h => (by cases h), fun h => (by cases h)⟩
      | some d =>
        simp only
        cases d with
        | alts ps =>
          simp only [validateFormat]
          cases hm : tryAll (validate T n doc) ps 0 with
          | error e => exact ⟨fun h => (by cases h), fun h => (by cases h; exact absurd rfl (tryAll_error _ _ _ hm))⟩
          | ok m =>
            obtain ⟨h1, h2, h3⟩ := tryAll_ok _ ps 0 hm
            rw [Nat.zero_add] at h1 h2
            simp only
            constructor
            · intro h
              have hne : m ≠ ps.length := by intro hh; rw [if_pos hh] at h; cases h
              have hex : ∃ p ∈ ps, validate T n doc p = .ok () := by
                apply Decidable.byContradiction
                intro hno
                apply hne
                rw [h2]
                intro p hp
                rcases h3 p hp with h' | h'
                · exact absurd ⟨p, hp, h'⟩ hno
                · exact h'
              obtain ⟨p, hp, hv⟩ := hex
              exact .oneOf hf hp ((ih doc p).1 hv)
            · intro h hc
              have he : m = ps.length := by
                apply Decidable.byContradiction
                intro hh
                rw [if_neg hh] at h; cases h
              cases hc with
              | oneOf hf' hp hcp =>
                rw [hf] at hf'; cases hf'
                exact (ih doc _).2 (h2.1 he _ hp) hcp
              | fields hf' => rw [hf] at hf'; cases hf'
        | keys ks =>
          cases doc with
          | dict l =>
            simp only [validateFormat]
            constructor
            · intro h
              cases hk : each (checkKey (validate T n) l) ks with
              | error e => rw [hk] at h; cases h
              | ok u =>
                rw [hk] at h
                have hkeys := (each_ok _ ks).1 hk
                have hall := (each_ok _ l).1 h
                refine .fields hf ?_ ?_ (fun e he => (allowed_ok ks e).1 (hall e he))
                · intro kp hkp hmand
                  have := hkeys kp hkp
                  unfold checkKey at this
                  cases hg : get l (bare kp.1) with
                  | none => rw [hg, hmand] at this; cases this
                  | some x => rfl
                · intro kp hkp x hx
                  have := hkeys kp hkp
                  unfold checkKey at this
                  rw [hx] at this
                  exact (ih x kp.2).1 this
            · intro h hc
              cases hc with
              | oneOf hf' => rw [hf] at hf'; cases hf'
              | fields hf' hm hv ho =>
                rw [hf] at hf'; cases hf'
                cases hk : each (checkKey (validate T n) l) ks with
                | error e =>
                  rw [hk] at h; cases h
                  obtain ⟨kp, hkp, he⟩ := each_error hk
                  unfold checkKey at he
                  cases hg : get l (bare kp.1) with
                  | none =>
                    rw [hg] at he
                    cases hmand : mandatory kp.1 with
                    | true => have := hm kp hkp hmand; rw [hg] at this; cases this
                    | false => rw [hmand] at he; cases he
                  | some x => rw [hg] at he; exact (ih x kp.2).2 he (hv kp hkp x hg)
                | ok u =>
                  rw [hk] at h
                  obtain ⟨e, he, hh⟩ := each_error h
                  have := (allowed_ok ks e).2 (ho e he)
                  rw [hh] at this; cases this
          | _ =>
            refine ⟨fun h => (by cases h), fun _ hc => ?_⟩
            cases hc with
            | oneOf hf' => rw [hf] at hf'; cases hf'

/-! ### the limit is only reached by deeply nested documents -/

theorem depthL_mem {x : Yaml} {l : List Yaml} (h : x ∈ l) : depth x ≤ depthL l := by
  induction l with
  | nil => cases h
  | cons y l ih =>
    rw [depthL]
    rcases List.mem_cons.1 h with rfl | h
    · exact Nat.le_max_left _ _
    · exact Nat.le_trans (ih h) (Nat.le_max_right _ _)

theorem depthE_mem {e : Yaml × Yaml} {l : Entries} (h : e ∈ l) : depth e.1 ≤ depthE l ∧ depth e.2 ≤ depthE l := by
  induction l with
  | nil => cases h
  | cons y l ih =>
    obtain ⟨k, v⟩ := y
    rw [depthE]
    rcases List.mem_cons.1 h with rfl | h
    · simp only; omega
    · have := ih h; omega

theorem get_mem {l : Entries} {k : Text} {v : Yaml} (h : get l k = some v) : (.str k, v) ∈ l := by
  unfold get at h
  rw [Option.map_eq_some_iff] at h
  obtain ⟨e, he, rfl⟩ := h
  have h1 := List.mem_of_find?_eq_some he
  have h2 := List.find?_some he
  rw [isKey_iff] at h2
  rw [← h2]; exact h1

/-- With enough room for nested calls the validator ends normally or with a ValueError. -/
theorem validate_total (T : Table) (hT : T.Closed) : ∀ (d n : Nat) (doc : Yaml) (p : Pat), depth doc ≤ d → p.Known T → 2 * d + (if p.isNamed then 2 else 1) ≤ n →
    validate T n doc p = .ok () ∨ validate T n doc p = .error .valueError := by
  intro d
  induction d using Nat.strongRecOn with
  | _ d ih =>
    have unnamed : ∀ (n : Nat) (doc : Yaml) (p : Pat), depth doc ≤ d → p.Known T → p.isNamed = false → 2 * d + 1 ≤ n → validate T n doc p = .ok () ∨ validate T n doc p = .error .valueError := by
      intro n doc p hd hp hnn hn
      obtain ⟨n, rfl⟩ : ∃ m, n = m + 1 := ⟨n - 1, by omega⟩
      cases p with
      | any => exact Or.inl rfl
      | named f => cases hnn
      | str => simp only [validate]; split <;> simp
      | bool => simp only [validate]; split <;> simp
      | regex r =>
        simp only [validate]
        cases doc.text with
        | none => exact Or.inr rfl
        | some t => simp only; split <;> simp
      | items p =>
        simp only [validate]
        cases doc with
        | list l =>
          simp only
          rw [depth] at hd
          cases h : each (fun x => validate T n x p) l with
          | ok u => exact Or.inl rfl
          | error e =>
            obtain ⟨x, hx, he⟩ := each_error h
            have hdx := depthL_mem hx
            rcases ih (d - 1) (by omega) n x p (by omega) hp (by split <;> omega) with h' | h' <;> rw [h'] at he <;> cases he
            exact Or.inr rfl
        | _ => exact Or.inr rfl
      | entries k v =>
        simp only [validate]
        cases doc with
        | dict l =>
          simp only
          rw [depth] at hd
          cases h : each (fun e => match validate T n e.1 k with
              | .ok () => validate T n e.2 v
              | .error x => .error x) l with
          | ok u => exact Or.inl rfl
          | error e =>
            obtain ⟨x, hx, he⟩ := each_error h
            have hdx := depthE_mem hx
            rcases ih (d - 1) (by omega) n x.1 k (by omega) hp.1 (by split <;> omega) with h' | h' <;> rw [h'] at he
            · rcases ih (d - 1) (by omega) n x.2 v (by omega) hp.2 (by split <;> omega) with h'' | h'' <;> rw [h''] at he <;> cases he
              exact Or.inr rfl
            · cases he; exact Or.inr rfl
        | _ => exact Or.inr rfl
    intro n doc p hd hp hn
    cases hnm : p.isNamed with
    | false => rw [hnm] at hn; exact unnamed n doc p hd hp hnm (by simpa using hn)
    | true =>
      rw [hnm] at hn
      simp only [if_true] at hn
      cases p with
      | named f =>
        obtain ⟨n, rfl⟩ : ∃ m, n = m + 1 := ⟨n - 1, by omega⟩
        simp only [validate]
        cases hf : T.find f with
        | none => unfold Pat.Known at hp; rw [hf] at hp; cases hp
        | some g =>
          simp only
          have hg : g.Known T := by
            unfold Table.find at hf
            rw [Option.map_eq_some_iff] at hf
            obtain ⟨e, he, rfl⟩ := hf
            exact hT e (List.mem_of_find?_eq_some he)
          cases g with
          | alts ps =>
            simp only [validateFormat]
            obtain ⟨m, hm⟩ := tryAll_total (validate T n doc) ps 0 (fun q hq => unnamed n doc q hd (hg q hq).1 (hg q hq).2 (by omega))
            rw [hm]
            simp only
            split <;> simp
          | keys ks =>
            simp only [validateFormat]
            cases doc with
            | dict l =>
              simp only
              rw [depth] at hd
              cases h : each (checkKey (validate T n) l) ks with
              | error e =>
                obtain ⟨kp, hkp, he⟩ := each_error h
                unfold checkKey at he
                cases hgt : get l (bare kp.1) with
                | none =>
                  rw [hgt] at he
                  simp only at he
                  split at he
                  · cases he; exact Or.inr rfl
                  · cases he
                | some x =>
                  rw [hgt] at he
                  simp only at he
                  have hdx := (depthE_mem (get_mem hgt)).2
                  rcases ih (d - 1) (by omega) n x kp.2 (by simp only at hdx; omega) (hg kp hkp) (by split <;> omega) with h' | h' <;> rw [h'] at he <;> cases he
                  exact Or.inr rfl
              | ok u =>
                simp only
                cases h' : each (allowed ks) l with
                | ok u => exact Or.inl rfl
                | error e =>
                  obtain ⟨x, _, he⟩ := each_error h'
                  rw [allowed_error he]; exact Or.inr rfl
            | _ => exact Or.inr rfl
      | _ => cases hnm

/-- C55 for every table of formats without dangling names: with a limit that exceeds twice the nesting of the document, `validate` accepts exactly the conforming documents. -/
theorem validate_iff (T : Table) (hT : T.Closed) (doc : Yaml) (p : Pat) (hp : p.Known T) (limit : Nat) (hl : 2 * depth doc + 2 ≤ limit) :
    validate T limit doc p = .ok () ↔ Conforms T doc p := by
  constructor
  · exact (validate_sound T limit doc p).1
  · intro h
    rcases validate_total T hT (depth doc) limit doc p (Nat.le_refl _) hp (by split <;> omega) with h' | h'
    · exact h'
    · exact absurd h ((validate_sound T limit doc p).2 h')

/-- And it refuses all others with a ValueError. -/
theorem validate_refuses (T : Table) (hT : T.Closed) (doc : Yaml) (p : Pat) (hp : p.Known T) (limit : Nat) (hl : 2 * depth doc + 2 ≤ limit) :
    validate T limit doc p = .error .valueError ↔ ¬ Conforms T doc p := by
  constructor
  · exact (validate_sound T limit doc p).2
  · intro h
    rcases validate_total T hT (depth doc) limit doc p (Nat.le_refl _) hp (by split <;> omega) with h' | h'
    · exact absurd ((validate_sound T limit doc p).1 h') h
    · exact h'

/-- A name that is in no table is a KeyError. -/
theorem validate_unknown (T : Table) (n : Nat) (doc : Yaml) (f : Text) (h : T.find f = none) : validate T (n + 1) doc (.named f) = .error .keyError := by
  simp only [validate, h]

end Osp.Yaml
