import Verif.Wire.Model
/-! Helper lemmas for the wire protocol. -/
namespace Osp.Wire

@[simp] theorem unutf8_utf8 (s : String) : unutf8 (utf8 s) = some s := by
  unfold unutf8 utf8 String.fromUTF8?
  have h : (⟨s.toUTF8.data.toList.toArray⟩ : ByteArray) = s.toByteArray := by simp
  rw [dif_pos (by rw [h]; exact s.isValidUTF8)]
  simp [String.fromUTF8]

theorem utf8_unutf8 {b : Bytes} {s : String} (h : unutf8 b = some s) : utf8 s = b := by
  unfold unutf8 String.fromUTF8? at h
  split at h
  · simp only [Option.some.injEq] at h
    subst h
    simp [utf8, String.fromUTF8]
  · cases h

theorem utf8_eq_nil {s : String} : utf8 s = [] ↔ s = "" := by
  constructor
  · intro h
    have := unutf8_utf8 s
    rw [h] at this
    have h2 : unutf8 [] = some "" := by
      have := unutf8_utf8 ""
      simpa [utf8] using this
    rw [h2] at this
    exact (Option.some.inj this).symm
  · intro h; subst h; simp [utf8]

@[simp] theorem utf8_empty : utf8 "" = [] := utf8_eq_nil.2 rfl

@[simp] theorem digitsBE_length (w n : Nat) : (digitsBE w n).length = w := by
  induction w generalizing n with
  | zero => simp [digitsBE]
  | succ w ih => simp [digitsBE, ih]

theorem fromBytes_append_single (b : Bytes) (x : UInt8) : fromBytes (b ++ [x]) = fromBytes b * 256 + x.toNat := by
  simp [fromBytes]

theorem fromBytes_digitsBE (w n : Nat) (h : n < 256 ^ w) : fromBytes (digitsBE w n) = n := by
  induction w generalizing n with
  | zero => simp at h; subst h; simp [digitsBE, fromBytes]
  | succ w ih =>
    have h1 : n / 256 < 256 ^ w := by
      rw [Nat.pow_succ] at h
      exact Nat.div_lt_of_lt_mul (by rwa [Nat.mul_comm] at h)
    rw [digitsBE, fromBytes_append_single, ih _ h1]
    have : (UInt8.ofNat (n % 256)).toNat = n % 256 := by simp
    rw [this]; omega

theorem snoc_induction {α : Type} {P : List α → Prop} (h0 : P []) (h1 : ∀ l x, P l → P (l ++ [x])) (l : List α) : P l := by
  have : ∀ r : List α, P r.reverse := by
    intro r
    induction r with
    | nil => simpa
    | cons x r ih => simpa using h1 _ x ih
  simpa using this l.reverse

theorem digitsBE_fromBytes (b : Bytes) : digitsBE b.length (fromBytes b) = b := by
  induction b using snoc_induction with
  | h0 => rfl
  | h1 l x ih =>
    have hx := x.toNat_lt
    rw [fromBytes_append_single]
    simp only [List.length_append, List.length_cons, List.length_nil, Nat.zero_add, digitsBE]
    rw [show (fromBytes l * 256 + x.toNat) / 256 = fromBytes l by omega,
      show (fromBytes l * 256 + x.toNat) % 256 = x.toNat by omega, ih]
    simp

theorem fromBytes_lt (b : Bytes) : fromBytes b < 256 ^ b.length := by
  induction b using snoc_induction with
  | h0 => simp [fromBytes]
  | h1 b x ih =>
    rw [fromBytes_append_single]
    have := x.toNat_lt
    simp [Nat.pow_succ]
    omega

theorem toBytes_ok {w : Nat} {n : Int} {b : Bytes} :
    toBytes w n = .ok b ↔ ∃ k : Nat, n = k ∧ k < 256 ^ w ∧ b = digitsBE w k := by
  unfold toBytes
  constructor
  · intro h
    split at h
    · cases h
    · split at h
      · cases h
        exact ⟨n.toNat, by omega, by assumption, rfl⟩
      · cases h
  · rintro ⟨k, rfl, hk, rfl⟩
    rw [if_neg (by omega), if_pos (by simpa using hk)]
    simp

/-! ### blocks -/

theorem recvMany_append (blocks : List Bytes) (rest : List Bytes) :
    recvMany blocks.length (blocks ++ rest) = .ok (blocks.flatten, rest) := by
  induction blocks with
  | nil => rfl
  | cons b bs ih => simp [recvMany, recv, bind, Except.bind, ih]

theorem slices_flatten (b : Bytes) (bs k : Nat) :
    ((List.range k).map fun i => (b.take ((i + 1) * bs)).drop (i * bs)).flatten = b.take (k * bs) := by
  induction k with
  | zero => simp
  | succ k ih =>
    rw [List.range_succ, List.map_append, List.flatten_append, ih]
    simp only [List.map_cons, List.map_nil, List.flatten_cons, List.flatten_nil, List.append_nil]
    have h : b.take (k * bs) = (b.take ((k + 1) * bs)).take (k * bs) := by
      rw [List.take_take, Nat.min_eq_left (Nat.mul_le_mul_right _ (Nat.le_succ k))]
    rw [h, List.take_append_drop]

theorem ceilDiv_mul_ge (n bs : Nat) (h : 0 < bs) : n ≤ ceilDiv n bs * bs := by
  unfold ceilDiv
  have := Nat.div_add_mod (n + bs - 1) bs
  have := Nat.mod_lt (n + bs - 1) h
  rw [Nat.mul_comm]; omega

theorem ceilDiv_lt (n bs i : Nat) (h : 0 < bs) (hi : i < ceilDiv n bs) : i * bs < n := by
  unfold ceilDiv at hi
  have := (Nat.le_div_iff_mul_le h).1 (Nat.succ_le_of_lt hi)
  rw [Nat.succ_mul] at this
  omega

theorem ceilDiv_zero (bs : Nat) (h : 0 < bs) : ceilDiv 0 bs = 0 := by
  unfold ceilDiv; exact Nat.div_eq_of_lt (by omega)

theorem ceilDiv_step (n bs : Nat) (h : 0 < bs) (hn : 0 < n) : ceilDiv n bs = ceilDiv (n - bs) bs + 1 := by
  unfold ceilDiv
  by_cases hb : bs ≤ n
  · rw [show n + bs - 1 = (n - bs + bs - 1) + bs by omega, Nat.add_div_right _ h]
  · rw [show n - bs + bs - 1 = bs - 1 by omega, Nat.div_eq_of_lt (show bs - 1 < bs by omega)]
    have h1 : n + bs - 1 = (n - 1) + bs := by omega
    rw [h1, Nat.add_div_right _ h, Nat.div_eq_of_lt (by omega)]

theorem readBlocks_length (bs : Nat) (h : 0 < bs) (c : Bytes) : (readBlocks bs c).length = ceilDiv c.length bs := by
  induction hn : c.length using Nat.strongRecOn generalizing c with
  | _ n ih =>
    subst hn
    rw [readBlocks]
    split
    · next hc =>
      have : c = [] := by
        cases c with
        | nil => rfl
        | cons x xs => cases bs with
          | zero => omega
          | succ k => simp at hc
      subst this
      simp [ceilDiv_zero _ h]
    · next x xs hc =>
      have hpos : 0 < c.length := by
        cases c with
        | nil => simp at hc
        | cons _ _ => simp
      rw [List.length_cons, ih (c.drop bs).length (by simp; omega) _ rfl, ceilDiv_step _ _ h hpos]
      simp

theorem readBlocks_flatten (bs : Nat) (h : 0 < bs) (c : Bytes) : (readBlocks bs c).flatten = c := by
  induction hn : c.length using Nat.strongRecOn generalizing c with
  | _ n ih =>
    subst hn
    rw [readBlocks]
    split
    · next hc =>
      cases c with
      | nil => rfl
      | cons x xs => cases bs with
        | zero => omega
        | succ k => simp at hc
    · next x xs hc =>
      have hpos : 0 < c.length := by
        cases c with
        | nil => simp at hc
        | cons _ _ => simp
      rw [List.flatten_cons, ih (c.drop bs).length (by simp; omega) _ rfl, ← hc, List.take_append_drop]

/-! ### base names -/

theorem mem_takeWhile_imp {α : Type} {p : α → Bool} {l : List α} {x : α} (h : x ∈ l.takeWhile p) : p x = true := by
  induction l with
  | nil => simp at h
  | cons y ys ih =>
    rw [List.takeWhile_cons] at h
    split at h
    · rcases List.mem_cons.1 h with rfl | h
      · assumption
      · exact ih h
    · cases h

theorem takeWhile_eq_self {α : Type} {p : α → Bool} {l : List α} (h : ∀ x ∈ l, p x = true) : l.takeWhile p = l := by
  induction l with
  | nil => rfl
  | cons y ys ih =>
    rw [List.takeWhile_cons, if_pos (h y (by simp)), ih (fun x hx => h x (by simp [hx]))]

theorem basename_no_slash (p : String) : '/' ∉ (basename p).toList := by
  intro h
  simp only [basename, String.toList_ofList, List.mem_reverse] at h
  have := mem_takeWhile_imp h
  simp at this

theorem basename_of_no_slash {p : String} (h : '/' ∉ p.toList) : basename p = p := by
  unfold basename
  have : p.toList.reverse.takeWhile (· ≠ '/') = p.toList.reverse := by
    apply takeWhile_eq_self
    intro x hx
    simp only [decide_not, Bool.not_eq_eq_eq_not, Bool.not_true, decide_eq_false_iff_not]
    rintro rfl
    exact h (List.mem_reverse.1 hx)
  rw [this]; simp

@[simp] theorem basename_basename (p : String) : basename (basename p) = basename p :=
  basename_of_no_slash (basename_no_slash p)

end Osp.Wire
