import Verif.Camel.More
/-!
# C77: what is taken for the name of an entity
-/
namespace Osp.Camel
open Osp.Yaml

/-- Specification: a name of the old style: a capital letter or an underscore, then capital letters, digits and underscores. -/
def OldName (t : Text) : Prop :=
  ∃ c u, t = c :: u ∧ c ∈ "ABCDEFGHIJKLMNOPQRSTUVWXYZ_".toList ∧ ∀ d ∈ u, d ∈ "ABCDEFGHIJKLMNOPQRSTUVWXYZ_0123456789".toList

theorem isCap_iff (c : Char) : isCap c = true ↔ c ∈ "ABCDEFGHIJKLMNOPQRSTUVWXYZ_".toList := by
  constructor
  · intro h
    unfold isCap at h
    simp only [Bool.or_eq_true, Bool.and_eq_true, decide_eq_true_eq, beq_iff_eq] at h
    rcases h with ⟨h1, h2⟩ | rfl
    · have a1 : 65 ≤ c.toNat := h1
      have a2 : c.toNat ≤ 90 := h2
      have key : ∀ n, 65 ≤ n → n ≤ 90 → Char.ofNat n ∈ "ABCDEFGHIJKLMNOPQRSTUVWXYZ_".toList := by
        intro n h1 h2
        have : ∀ k : Fin 26, Char.ofNat (65 + k.val) ∈ "ABCDEFGHIJKLMNOPQRSTUVWXYZ_".toList := by decide +kernel
        have := this ⟨n - 65, by omega⟩
        rwa [show 65 + (n - 65) = n by omega] at this
      have := key c.toNat a1 a2
      rwa [Char.ofNat_toNat] at this
    · decide
  · intro h
    have : ∀ d ∈ "ABCDEFGHIJKLMNOPQRSTUVWXYZ_".toList, isCap d = true := by decide +kernel
    exact this c h

theorem isCapChar_iff (c : Char) : isCapChar c = true ↔ c ∈ "ABCDEFGHIJKLMNOPQRSTUVWXYZ_0123456789".toList := by
  have hs : "ABCDEFGHIJKLMNOPQRSTUVWXYZ_0123456789".toList = "ABCDEFGHIJKLMNOPQRSTUVWXYZ_".toList ++ "0123456789".toList := by decide +kernel
  rw [hs, List.mem_append, ← isCap_iff]
  unfold isCapChar
  rw [Bool.or_eq_true]
  refine or_congr Iff.rfl ?_
  constructor
  · intro h
    simp only [Bool.and_eq_true, decide_eq_true_eq] at h
    have a1 : 48 ≤ c.toNat := h.1
    have a2 : c.toNat ≤ 57 := h.2
    have key : ∀ n, 48 ≤ n → n ≤ 57 → Char.ofNat n ∈ "0123456789".toList := by
      intro n h1 h2
      have : ∀ k : Fin 10, Char.ofNat (48 + k.val) ∈ "0123456789".toList := by decide +kernel
      have := this ⟨n - 48, by omega⟩
      rwa [show 48 + (n - 48) = n by omega] at this
    have := key c.toNat a1 a2
    rwa [Char.ofNat_toNat] at this
  · intro h
    have : ∀ d ∈ "0123456789".toList, ('0' ≤ d && d ≤ '9') = true := by decide +kernel
    exact this c h

theorem capsRe_oldName (t : Text) : Lang capsRe t ↔ OldName t := by
  rw [capsRe_iff]
  simp only [isCap_iff, isCapChar_iff]
  rfl

/-- C77: what the converter takes for the name of an entity: at the top of the ontology a name of the old style, elsewhere two such names with a dot
between (in both cases also with a line break at the end). -/
theorem names_taken (top : Bool) (w : Text) : (pattern top).matches w = true ↔
    ∃ u, (w = u ∨ w = u ++ ['\n']) ∧ (if top then OldName u else ∃ n m, u = n ++ '.' :: m ∧ OldName n ∧ OldName m) := by
  have key : ∀ u, Lang (if top then capsRe else .seq capsRe (.seq (.chr '.') capsRe)) u ↔
      (if top then OldName u else ∃ n m, u = n ++ '.' :: m ∧ OldName n ∧ OldName m) := by
    intro u
    cases top with
    | true => exact capsRe_oldName u
    | false =>
      simp only [Bool.false_eq_true, if_false]
      rw [lang_seq]
      constructor
      · rintro ⟨a, b, rfl, h1, h2⟩
        obtain ⟨c, d, rfl, h3, h4⟩ := (lang_seq _ _ _).1 h2
        have : c = ['.'] := (lang_chr _ _).1 h3
        subst this
        exact ⟨a, d, rfl, (capsRe_oldName a).1 h1, (capsRe_oldName d).1 h4⟩
      · rintro ⟨n, m, rfl, h1, h2⟩
        exact ⟨n, '.' :: m, rfl, (capsRe_oldName n).2 h1, (lang_seq _ _ _).2 ⟨['.'], m, rfl, (lang_chr _ _).2 rfl, (capsRe_oldName m).2 h2⟩⟩
  have hm : (pattern top).matches w = true ↔
      Lang (if top then capsRe else .seq capsRe (.seq (.chr '.') capsRe)) w ∨
        ∃ u, w = u ++ ['\n'] ∧ Lang (if top then capsRe else .seq capsRe (.seq (.chr '.') capsRe)) u := by
    rw [matches_iff]
    cases top <;> exact Iff.rfl
  rw [hm]
  simp only [key]
  constructor
  · rintro (h | ⟨u, rfl, h⟩)
    · exact ⟨w, Or.inl rfl, h⟩
    · exact ⟨u, Or.inr rfl, h⟩
  · rintro ⟨u, rfl | rfl, h⟩
    · exact Or.inl h
    · exact Or.inr ⟨u, rfl, h⟩

end Osp.Camel
