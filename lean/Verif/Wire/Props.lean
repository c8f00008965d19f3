import Verif.Wire.Spec
import Verif.Wire.Lemmas
/-!
# Properties C01 – C05, C59: the wire protocol
-/
namespace Osp.Wire

/-! ### C01 headers -/

theorem encodeFixed_forall₂ {els : List Elem} {ws : List Nat} (h : List.Forall₂ FitsWidth els ws) (tail : List Elem) :
    ∃ bs, encodeFixed (els ++ tail) ws = .ok bs ∧ bs.length = ws.sum ∧
      ∀ t, decodeHeader (bs ++ t) ws = (decodeHeader t []).map (els ++ ·) := by
  induction h with
  | nil =>
    refine ⟨[], ?_, rfl, ?_⟩
    · cases tail with
      | nil => rfl
      | cons a as => cases a <;> rfl
    · intro t; simp [Except.map]; cases decodeHeader t [] <;> rfl
  | @cons e w es ws he _ ih =>
    obtain ⟨n, rfl, hn⟩ := he
    obtain ⟨bs, h1, h2, h3⟩ := ih
    refine ⟨digitsBE w n ++ bs, ?_, by simp [h2], ?_⟩
    · simp only [List.cons_append, encodeFixed]
      rw [toBytes_ok.2 ⟨n, rfl, hn, rfl⟩, h1]; rfl
    · intro t
      rw [show decodeHeader (digitsBE w n ++ bs ++ t) (w :: ws) =
        (decodeHeader ((digitsBE w n ++ bs ++ t).drop w) ws).bind fun rest =>
          .ok (.int (fromBytes ((digitsBE w n ++ bs ++ t).take w)) :: rest) from by
            conv => lhs; unfold decodeHeader
            rw [if_neg (by simp)]; rfl]
      have e1 : (digitsBE w n ++ bs ++ t).drop w = bs ++ t := by
        rw [List.append_assoc, List.drop_append_of_le_length (by simp), List.drop_of_length_le (by simp)]; simp
      have e2 : (digitsBE w n ++ bs ++ t).take w = digitsBE w n := by
        rw [List.append_assoc, List.take_append_of_le_length (by simp), List.take_of_length_le (by simp)]
      rw [e1, e2, h3, fromBytes_digitsBE _ _ hn]
      cases decodeHeader t [] <;> rfl

theorem encodeFixed_ok {els : List Elem} {ws : List Nat} {bs : Bytes} (hl : ws.length ≤ els.length)
    (h : encodeFixed els ws = .ok bs) : List.Forall₂ FitsWidth (els.take ws.length) ws := by
  induction ws generalizing els bs with
  | nil => simp
  | cons w ws ih =>
    cases els with
    | nil => simp at hl
    | cons e es =>
      cases e with
      | str s => simp [encodeFixed] at h
      | int n =>
        simp only [encodeFixed, bind, Except.bind] at h
        split at h
        · cases h
        · rename_i b hb
          split at h
          · cases h
          · rename_i r hr
            obtain ⟨k, rfl, hk, _⟩ := toBytes_ok.1 hb
            simp only [List.length_cons, List.take_succ_cons]
            exact .cons ⟨k, rfl, hk⟩ (ih (by simpa using hl) hr)

theorem forall₂_length {α β : Type} {R : α → β → Prop} {l : List α} {m : List β} (h : List.Forall₂ R l m) :
    l.length = m.length := by
  induction h with
  | nil => rfl
  | cons _ _ ih => simp [ih]

theorem fits_not_str {els : List Elem} {ws : List Nat} (h : List.Forall₂ FitsWidth els ws) (s : String) : Elem.str s ∉ els := by
  induction h with
  | nil => simp
  | cons ha _ ih => obtain ⟨n, rfl, _⟩ := ha; simpa using ih

theorem header_encodable (els : List Elem) (ws : List Nat) (h : HeaderOk els ws) :
    ∃ bs, encodeHeader els ws = .ok bs ∧ decodeHeader bs ws = .ok (delivered els) := by
  obtain ⟨fixed, hf, rfl | ⟨s, rfl⟩⟩ := h
  · have hl := forall₂_length hf
    obtain ⟨bs, h1, _, h3⟩ := encodeFixed_forall₂ hf []
    refine ⟨bs, ?_, ?_⟩
    · unfold encodeHeader
      rw [if_neg (by omega)]
      simp only [List.append_nil] at h1
      rw [h1]
      simp [bind, Except.bind, hl]
    · have := h3 []
      simp only [List.append_nil] at this
      rw [this]
      have hd : delivered els = els := by
        unfold delivered
        rw [if_neg]
        intro hlast
        exact fits_not_str hf _ (List.mem_of_getLast? hlast)
      rw [hd]
      simp [decodeHeader, Except.map]
  · have hl := forall₂_length hf
    obtain ⟨bs, h1, _, h3⟩ := encodeFixed_forall₂ hf [.str s]
    refine ⟨bs ++ utf8 s, ?_, ?_⟩
    · unfold encodeHeader
      rw [if_neg (by simp; omega), h1]
      simp [bind, Except.bind, hl]
    · rw [h3]
      by_cases hs : s = ""
      · subst hs
        simp [decodeHeader, Except.map, delivered]
      · have hne : utf8 s ≠ [] := fun hc => hs (utf8_eq_nil.1 hc)
        have hpos : 0 < (utf8 s).length := List.length_pos_iff.2 hne
        simp only [decodeHeader, gt_iff_lt, hpos, ↓reduceIte, unutf8_utf8, Except.map]
        have : delivered (fixed ++ [Elem.str s]) = fixed ++ [Elem.str s] := by
          unfold delivered
          simp [hs]
        rw [this]

/-- **C01** (which headers can be encoded). -/
theorem header_encodable_iff (els : List Elem) (ws : List Nat) :
    (∃ bs, encodeHeader els ws = .ok bs) ↔ HeaderOk els ws := by
  constructor
  · rintro ⟨bs, h⟩
    unfold encodeHeader at h
    split at h
    · cases h
    · rename_i hl
      simp only [bind, Except.bind] at h
      split at h
      · cases h
      · rename_i r hr
        have hfix := encodeFixed_ok (by omega) hr
        refine ⟨els.take ws.length, hfix, ?_⟩
        split at h
        · rename_i hgt
          right
          split at h
          · rename_i s hs
            refine ⟨s, ?_⟩
            have h1 : ws.length = els.length - 1 := by omega
            rw [h1, ← List.dropLast_eq_take]
            have hne : els ≠ [] := by rintro rfl; simp at hgt
            rw [List.getLast?_eq_some_getLast hne] at hs
            have := List.dropLast_append_getLast hne
            rw [Option.some.inj hs] at this
            exact this.symm
          · cases h
        · left; rw [List.take_of_length_le (by omega)]
  · intro h
    obtain ⟨bs, h, _⟩ := header_encodable els ws h
    exact ⟨bs, h⟩

/-- **C01** (round trip): whatever `encode_header` produces, `decode_header` with the same widths reads back the same
elements. -/
theorem header_roundtrip (els : List Elem) (ws : List Nat) (bs : Bytes) (h : encodeHeader els ws = .ok bs) :
    decodeHeader bs ws = .ok (delivered els) := by
  obtain ⟨bs', h1, h2⟩ := header_encodable els ws ((header_encodable_iff els ws).1 ⟨bs, h⟩)
  rw [h] at h1
  cases h1
  exact h2

/-- **C01** (rejection): a wrong number of elements is a ValueError, and that is the only ValueError. -/
theorem header_count_mismatch (els : List Elem) (ws : List Nat) :
    encodeHeader els ws = .error .valueError ↔ els.length < ws.length ∨ ws.length + 1 < els.length := by
  have hfix : ∀ (ws : List Nat) (els : List Elem) e, encodeFixed els ws = .error e → e ≠ .valueError := by
    intro ws
    induction ws with
    | nil => intro els e h; cases els with
      | nil => simp [encodeFixed] at h
      | cons a _ => cases a <;> simp [encodeFixed] at h
    | cons w ws ih =>
      intro els e h
      cases els with
      | nil => simp [encodeFixed] at h
      | cons a as =>
        cases a with
        | str s => simp [encodeFixed] at h; subst h; simp
        | int n =>
          simp only [encodeFixed, bind, Except.bind] at h
          split at h
          · rename_i e' he'
            cases h
            unfold toBytes at he'
            split at he'
            · cases he'; simp
            · split at he'
              · cases he'
              · cases he'; simp
          · split at h
            · rename_i e' he'
              cases h
              exact ih _ _ he'
            · cases h
  unfold encodeHeader
  split
  · rename_i h; simp; omega
  · rename_i h
    constructor
    · intro hh
      simp only [bind, Except.bind] at hh
      split at hh
      · rename_i e he
        cases hh
        exact absurd rfl (hfix _ _ _ he)
      · split at hh
        · split at hh <;> cases hh
        · cases hh
    · intro hh; omega

/-- **C01** (no overflow is silently truncated): an integer that does not fit its width makes the encoder raise. -/
theorem header_overflow (pre post : List Elem) (ws₁ ws₂ : List Nat) (w : Nat) (n : Int)
    (hp : pre.length = ws₁.length) (hn : n < 0 ∨ (256 : Int) ^ w ≤ n) :
    ∀ bs, encodeHeader (pre ++ .int n :: post) (ws₁ ++ w :: ws₂) ≠ .ok bs := by
  intro bs h
  obtain ⟨fixed, hf, hels⟩ := (header_encodable_iff _ _).1 ⟨bs, h⟩
  have hl := forall₂_length hf
  have key : ∀ (ws₁ : List Nat) (pre fixed : List Elem), pre.length = ws₁.length →
      List.Forall₂ FitsWidth fixed (ws₁ ++ w :: ws₂) → (∃ t, pre ++ .int n :: post = fixed ++ t) → False := by
    intro ws₁
    induction ws₁ with
    | nil =>
      intro pre fixed hp hf ⟨t, ht⟩
      cases pre with
      | cons _ _ => simp at hp
      | nil =>
        cases hf with
        | cons hw _ =>
          obtain ⟨k, rfl, hk⟩ := hw
          simp only [List.nil_append, List.cons_append, List.cons.injEq, Elem.int.injEq] at ht
          obtain ⟨rfl, _⟩ := ht
          have : ((256 ^ w : Nat) : Int) = (256 : Int) ^ w := by simp
          omega
    | cons w' ws₁ ih =>
      intro pre fixed hp hf ⟨t, ht⟩
      cases pre with
      | nil => simp at hp
      | cons a pre =>
        cases hf with
        | cons hw hf' =>
          simp only [List.cons_append, List.cons.injEq] at ht
          exact ih pre _ (by simpa using hp) hf' ⟨t, ht.2⟩
  rcases hels with rfl | ⟨s, hs⟩
  · exact key ws₁ pre _ hp hf ⟨[], by simp⟩
  · exact key ws₁ pre _ hp hf ⟨_, hs⟩

/-- **C01** (canonical form): a header that can be decoded is the encoding of what it decodes to. In particular two
different headers never decode to the same elements. -/
theorem header_canonical (bs : Bytes) (ws : List Nat) (els : List Elem) (h : decodeHeader bs ws = .ok els) :
    encodeHeader els ws = .ok bs := by
  have key : ∀ (ws : List Nat) (bs : Bytes) (els : List Elem), decodeHeader bs ws = .ok els →
      ∃ fixed r, List.Forall₂ FitsWidth fixed ws ∧ (∀ tl, encodeFixed (fixed ++ tl) ws = .ok r) ∧
        ((els = fixed ∧ bs = r) ∨ ∃ s, els = fixed ++ [.str s] ∧ bs = r ++ utf8 s) := by
    intro ws
    induction ws with
    | nil =>
      intro bs els h
      refine ⟨[], [], .nil, ?_, ?_⟩
      · intro tl; cases tl with
        | nil => rfl
        | cons a _ => cases a <;> rfl
      · unfold decodeHeader at h
        split at h
        · split at h
          · rename_i s hs
            cases h
            right; exact ⟨s, rfl, by simp [utf8_unutf8 hs]⟩
          · cases h
        · rename_i h0
          cases h
          left; exact ⟨rfl, List.length_eq_zero_iff.1 (by omega)⟩
    | cons w ws ih =>
      intro bs els h
      unfold decodeHeader at h
      split at h
      · cases h
      · rename_i hw
        simp only [bind, Except.bind] at h
        split at h
        · cases h
        · rename_i rest hrest
          cases h
          obtain ⟨fixed, r, h1, h2, h3⟩ := ih _ _ hrest
          have hlen : (bs.take w).length = w := by simp; omega
          have hlt : fromBytes (bs.take w) < 256 ^ w := by
            have := fromBytes_lt (bs.take w); rwa [hlen] at this
          have hdig : digitsBE w (fromBytes (bs.take w)) = bs.take w := by
            have := digitsBE_fromBytes (bs.take w); rwa [hlen] at this
          refine ⟨.int (fromBytes (bs.take w)) :: fixed, bs.take w ++ r, .cons ⟨_, rfl, hlt⟩ h1, ?_, ?_⟩
          · intro tl
            simp only [List.cons_append, encodeFixed]
            rw [toBytes_ok.2 ⟨_, rfl, hlt, rfl⟩, h2, hdig]; rfl
          · rcases h3 with ⟨rfl, h3⟩ | ⟨s, rfl, h3⟩
            · left; exact ⟨rfl, by rw [← h3, List.take_append_drop]⟩
            · right; exact ⟨s, rfl, by rw [List.append_assoc, ← h3, List.take_append_drop]⟩
  obtain ⟨fixed, r, h1, h2, h3⟩ := key ws bs els h
  have hl := forall₂_length h1
  unfold encodeHeader
  rcases h3 with ⟨rfl, rfl⟩ | ⟨s, rfl, rfl⟩
  · rw [if_neg (by omega)]
    have := h2 []
    simp only [List.append_nil] at this
    rw [this]; simp [bind, Except.bind, hl]
  · rw [if_neg (by simp; omega), h2]
    simp [bind, Except.bind, hl]

/-- **C01** (truncation): decoding raises IndexError iff the bytes are shorter than the sum of the widths. -/
theorem header_too_short (bs : Bytes) (ws : List Nat) :
    decodeHeader bs ws = .error .indexError ↔ bs.length < ws.sum := by
  induction ws generalizing bs with
  | nil =>
    unfold decodeHeader
    simp only [List.sum_nil, Nat.not_lt_zero, iff_false]
    split
    · split <;> simp
    · simp
  | cons w ws ih =>
    unfold decodeHeader
    split
    · simp; omega
    · rename_i hw
      have := ih (bs.drop w)
      simp only [bind, Except.bind]
      simp only [List.length_drop] at this
      rw [List.sum_cons]
      split
      · rename_i e he
        rw [he] at this
        constructor
        · intro hh
          have := this.1 hh
          omega
        · intro hh
          exact this.2 (by omega)
      · rename_i r hr
        rw [hr] at this
        simp only [reduceCtorEq, false_iff]
        intro hh
        exact absurd (this.2 (by omega)) (by simp)

example : HeaderOk [.int 1, .int 65536, .int 0, .str "init"] LEN_HEADER := by
  refine ⟨[.int 1, .int 65536, .int 0], ?_, Or.inr ⟨"init", rfl⟩⟩
  exact .cons ⟨1, rfl, by decide⟩ (.cons ⟨65536, rfl, by decide⟩ (.cons ⟨0, rfl, by decide⟩ .nil))
example : encodeHeader [.int 65536] [2] = .error .overflowError := by decide
example : encodeHeader [.int 258, .int 7] [2, 1] = .ok [1, 2, 7] := by decide

/-! ### C02 blocks -/

/-- **C02**: joining the announced number of blocks from a stream that starts with the blocks gives the message back and
leaves the rest of the stream. -/
theorem split_join (msg : String) (bs : Nat) (hbs : 0 < bs) (rest : List Bytes) :
    joinMessage (splitMessage msg bs).1 ((splitMessage msg bs).2 ++ rest) = .ok (msg, rest) := by
  unfold joinMessage splitMessage
  simp only
  have hlen : ((List.range (ceilDiv (utf8 msg).length bs)).map fun i =>
      ((utf8 msg).take ((i + 1) * bs)).drop (i * bs)).length = ceilDiv (utf8 msg).length bs := by simp
  have := recvMany_append ((List.range (ceilDiv (utf8 msg).length bs)).map fun i =>
      ((utf8 msg).take ((i + 1) * bs)).drop (i * bs)) rest
  rw [hlen] at this
  rw [this]
  simp only [bind, Except.bind]
  rw [slices_flatten, List.take_of_length_le (ceilDiv_mul_ge _ _ hbs), unutf8_utf8]

/-- **C02**: the number of blocks announced is the number of blocks sent; blocks are non-empty and at most `bs` long; all but the
last are exactly `bs` long. -/
theorem split_blocks_sized (msg : String) (bs : Nat) (hbs : 0 < bs) :
    (splitMessage msg bs).2.length = (splitMessage msg bs).1 ∧
    (∀ b ∈ (splitMessage msg bs).2, 0 < b.length ∧ b.length ≤ bs) ∧
    (∀ i, (hi : i + 1 < (splitMessage msg bs).2.length) → ((splitMessage msg bs).2[i]'(by omega)).length = bs) := by
  refine ⟨by simp [splitMessage], ?_, ?_⟩
  · intro b hb
    simp only [splitMessage, List.mem_map, List.mem_range] at hb
    obtain ⟨i, hi, rfl⟩ := hb
    have := ceilDiv_lt _ _ _ hbs hi
    simp only [List.length_drop, List.length_take]
    have : (i + 1) * bs = i * bs + bs := by rw [Nat.succ_mul]
    omega
  · intro i hi
    simp only [splitMessage, List.length_map, List.length_range] at hi
    have := ceilDiv_lt _ _ _ hbs hi
    simp only [splitMessage, List.getElem_map, List.getElem_range, List.length_drop, List.length_take]
    have : (i + 1) * bs = i * bs + bs := by rw [Nat.succ_mul]
    omega

example : (splitMessage "abcde" 2).1 = 3 := by decide +kernel

/-! ### C03 files -/

theorem encodeFile_ok {f : File} (h : Sendable f) :
    ∃ hd, encodeFile (some f) = ⟨hd :: readBlocks BLOCK_SIZE f.content, none⟩ ∧
      decodeHeader hd LEN_FILES_HEADER = .ok [.int (ceilDiv f.content.length BLOCK_SIZE), .str (basename f.path)] := by
  have hok : HeaderOk [.int (ceilDiv f.content.length BLOCK_SIZE), .str (basename f.path)] LEN_FILES_HEADER :=
    ⟨[.int (ceilDiv f.content.length BLOCK_SIZE)], .cons ⟨_, rfl, h.2⟩ .nil, Or.inr ⟨_, rfl⟩⟩
  obtain ⟨hd, h1, h2⟩ := header_encodable _ _ hok
  refine ⟨hd, by simp [encodeFile, h1], ?_⟩
  rw [h2]
  have hne : basename f.path ≠ "" := by
    have := h.1
    simp only [isFileName] at this
    intro hc; rw [hc] at this; simp at this
  simp [delivered, hne]

theorem receiveFile_encodeFile {H : Type} (sha : Bytes → H) {f : File} (h : Sendable f) (st : RecvState H) (rest : List Bytes) :
    receiveFile sha st ((encodeFile (some f)).frames ++ rest) =
      .ok (⟨upd st.dir (basename f.path) f.content, upd st.hashes (basename f.path) (sha f.content)⟩, rest) := by
  obtain ⟨hd, h1, h2⟩ := encodeFile_ok h
  unfold receiveFile
  rw [h1]
  simp only [List.cons_append, recv, bind, Except.bind, h2, basename_basename, h.1, ↓reduceIte]
  have := recvMany_append (readBlocks BLOCK_SIZE f.content) rest
  rw [readBlocks_length _ (by decide)] at this
  simp only [Int.toNat_natCast]
  rw [this, readBlocks_flatten _ (by decide)]

theorem lastWithName_nil (n : String) : lastWithName n [] = none := rfl

theorem lastWithName_cons (n : String) (f : File) (fs : List File) :
    lastWithName n (f :: fs) = (lastWithName n fs).or (if basename f.path = n then some f.content else none) := by
  unfold lastWithName
  by_cases h : basename f.path = n
  · simp only [List.filter_cons, h, decide_true, ↓reduceIte]
    cases hl : List.filter (fun f => decide (basename f.path = n)) fs with
    | nil => simp
    | cons a as => rw [List.getLast?_cons_cons]; cases h2 : (a :: as).getLast? <;> simp_all
  · simp [h]

theorem encodeFiles_ok {files : List File} (h : ∀ f ∈ files, Sendable f) : (encodeFiles (files.map some)).err = none := by
  induction files with
  | nil => rfl
  | cons f fs ih =>
    obtain ⟨hd, h1, _⟩ := encodeFile_ok (h f (by simp))
    simp only [List.map_cons, encodeFiles, Sent.andThen, h1]
    exact ih (fun g hg => h g (by simp [hg]))

/-- **C03**: sending files and receiving as many files as were sent stores under every base name the contents of the last file
sent with that base name, leaves everything else alone, records the hashes of the contents stored, and consumes exactly
the frames sent. -/
theorem files_roundtrip {H : Type} (sha : Bytes → H) (files : List File) (h : ∀ f ∈ files, Sendable f)
    (st : RecvState H) (rest : List Bytes) :
    (encodeFiles (files.map some)).err = none ∧
    ∃ st', receiveFiles sha files.length st ((encodeFiles (files.map some)).frames ++ rest) = .ok (st', rest) ∧
      (∀ n, st'.dir n = (lastWithName n files).or (st.dir n)) ∧
      (∀ n, st'.hashes n = ((lastWithName n files).map sha).or (st.hashes n)) := by
  refine ⟨encodeFiles_ok h, ?_⟩
  induction files generalizing st with
  | nil => exact ⟨st, rfl, by simp [lastWithName_nil], by simp [lastWithName_nil]⟩
  | cons f fs ih =>
    obtain ⟨hd, h1, _⟩ := encodeFile_ok (h f (by simp))
    have hfr : (encodeFiles ((f :: fs).map some)).frames =
        (encodeFile (some f)).frames ++ (encodeFiles (fs.map some)).frames := by
      simp only [List.map_cons, encodeFiles, Sent.andThen, h1]
    rw [hfr, List.append_assoc]
    simp only [List.length_cons, receiveFiles, bind, Except.bind]
    rw [receiveFile_encodeFile sha (h f (by simp))]
    simp only
    obtain ⟨st', h2, h3, h4⟩ := ih (fun g hg => h g (by simp [hg]))
      ⟨upd st.dir (basename f.path) f.content, upd st.hashes (basename f.path) (sha f.content)⟩
    refine ⟨st', h2, ?_, ?_⟩
    · intro n
      rw [h3, lastWithName_cons]
      by_cases hn : basename f.path = n
      · subst hn; cases lastWithName (basename f.path) fs <;> simp [upd]
      · cases lastWithName n fs <;> simp [upd, hn, Ne.symm hn]
    · intro n
      rw [h4, lastWithName_cons]
      by_cases hn : basename f.path = n
      · subst hn; cases lastWithName (basename f.path) fs <;> simp [upd]
      · cases lastWithName n fs <;> simp [upd, hn, Ne.symm hn]

example : Sendable ⟨"/tmp/a.txt", [1, 2, 3]⟩ := by decide +kernel

/-- **C59** (confinement): whatever frames a peer sends — well formed or not — receiving files changes only entries directly inside the
target directory: the names written contain no path separator and are not `""`, `"."` or `".."`. -/
theorem files_confined {H : Type} (sha : Bytes → H) (n : Nat) (st st' : RecvState H) (ws rest : List Bytes)
    (h : receiveFiles sha n st ws = .ok (st', rest)) (name : String) (hc : st'.dir name ≠ st.dir name) :
    '/' ∉ name.toList ∧ name ≠ "" ∧ name ≠ "." ∧ name ≠ ".." := by
  induction n generalizing st ws with
  | zero => simp only [receiveFiles, Except.ok.injEq, Prod.mk.injEq] at h; exact absurd (by rw [h.1]) hc
  | succ n ih =>
    simp only [receiveFiles, bind, Except.bind] at h
    split at h
    · cases h
    · rename_i p hp
      obtain ⟨st1, ws1⟩ := p
      simp only at h
      by_cases h1 : st'.dir name = st1.dir name
      · rw [h1] at hc
        unfold receiveFile at hp
        simp only [bind, Except.bind] at hp
        split at hp
        · cases hp
        split at hp
        · cases hp
        split at hp
        · split at hp
          · rename_i hf
            split at hp
            · cases hp
            · simp only [Except.ok.injEq, Prod.mk.injEq] at hp
              rw [← hp.1] at hc
              simp only [upd] at hc
              split at hc
              · rename_i heq
                rw [heq]
                refine ⟨basename_no_slash _, ?_⟩
                simpa [isFileName] using hf
              · exact absurd rfl hc
          · cases hp
        · cases hp
      · exact ih st1 ws1 h h1

/-! ### C04 requests and responses -/

/-- **C04** (requests): the server decodes exactly the command, data and files the client sent, and consumes exactly the client's
frames. -/
theorem request_roundtrip {H : Type} (sha : Bytes → H) (command data : String) (files : List File)
    (h : RequestOk command data files) (st : RecvState H) (rest : List Bytes) :
    (clientEncode command data (files.map some)).err = none ∧
    ∃ st', serverDecode sha st ((clientEncode command data (files.map some)).frames ++ rest) = .ok (⟨command, data, st'⟩, rest) ∧
      (∀ n, st'.dir n = (lastWithName n files).or (st.dir n)) ∧
      (∀ n, st'.hashes n = ((lastWithName n files).map sha).or (st.hashes n)) := by
  obtain ⟨hc, hd, hf, hs⟩ := h
  have hok : HeaderOk [.int VERSION, .int (splitMessage data).1, .int (files.map some).length, .str command] LEN_HEADER :=
    ⟨[.int VERSION, .int (splitMessage data).1, .int (files.map some).length],
      .cons ⟨1, rfl, by decide⟩ (.cons ⟨_, rfl, hd⟩ (.cons ⟨_, rfl, by simpa using hf⟩ .nil)), Or.inr ⟨_, rfl⟩⟩
  obtain ⟨hdr, h1, h2⟩ := header_encodable _ _ hok
  have henc : clientEncode command data (files.map some) =
      ⟨hdr :: (splitMessage data).2 ++ (encodeFiles (files.map some)).frames, (encodeFiles (files.map some)).err⟩ := by
    unfold clientEncode
    simp only [h1, Sent.andThen]
  rw [henc]
  obtain ⟨e1, st', e2, e3, e4⟩ := files_roundtrip sha files hs st rest
  refine ⟨e1, st', ?_, e3, e4⟩
  unfold serverDecode
  simp only [List.cons_append, recv, bind, Except.bind, h2, delivered, List.getLast?_cons_cons, List.getLast?_singleton,
    Option.some.injEq, Elem.str.injEq, hc, ↓reduceIte, List.append_assoc, ne_eq, not_true_eq_false]
  have := split_join data BLOCK_SIZE (by decide) ((encodeFiles (files.map some)).frames ++ rest)
  simp only [Int.toNat_natCast]
  rw [this]
  simp only [List.length_map]
  rw [e2]

example : RequestOk "_init" "{}" [⟨"/tmp/a.txt", [1, 2, 3]⟩] := by
  refine ⟨by decide, by decide +kernel, by decide, ?_⟩
  intro f hf
  simp only [List.mem_singleton] at hf
  subst hf
  decide +kernel

/-- **C04** (version): a request header with another protocol version is rejected, whatever follows. -/
theorem version_rejected {H : Type} (sha : Bytes → H) (st : RecvState H) (version blocks files : Nat) (command : String)
    (hdr : Bytes) (rest : List Bytes) (hv : version ≠ 1) (hc : command ≠ "")
    (h : encodeHeader [.int version, .int blocks, .int files, .str command] LEN_HEADER = .ok hdr) :
    serverDecode sha st (hdr :: rest) = .error .notImplementedError := by
  have h2 := header_roundtrip _ _ _ h
  unfold serverDecode
  have : (version : Int) ≠ VERSION := by unfold VERSION; omega
  simp only [recv, bind, Except.bind, h2, delivered, List.getLast?_cons_cons, List.getLast?_singleton,
    Option.some.injEq, Elem.str.injEq, hc, ↓reduceIte]
  rw [if_pos this]

example : ∃ hdr, encodeHeader [.int 2, .int 0, .int 0, .str "run"] LEN_HEADER = .ok hdr :=
  (header_encodable_iff _ _).2 ⟨[.int 2, .int 0, .int 0], .cons ⟨2, rfl, by decide⟩ (.cons ⟨0, rfl, by decide⟩ (.cons ⟨0, rfl, by decide⟩ .nil)), Or.inr ⟨_, rfl⟩⟩

theorem recvMany_truncated (n : Nat) (ws : List Bytes) (h : ws.length < n) : recvMany n ws = .error .connectionClosed := by
  induction n generalizing ws with
  | zero => omega
  | succ n ih =>
    cases ws with
    | nil => rfl
    | cons f fs => simp [recvMany, recv, bind, Except.bind, ih fs (by simpa using h)]

theorem receiveFile_truncated {H : Type} (sha : Bytes → H) {f : File} (h : Sendable f) (st : RecvState H) (k : Nat)
    (hk : k < (encodeFile (some f)).frames.length) :
    receiveFile sha st ((encodeFile (some f)).frames.take k) = .error .connectionClosed := by
  obtain ⟨hd, h1, h2⟩ := encodeFile_ok h
  rw [h1] at hk ⊢
  cases k with
  | zero => rfl
  | succ k =>
    simp only [List.length_cons] at hk
    unfold receiveFile
    simp only [List.take_succ_cons, recv, bind, Except.bind, h2, basename_basename, h.1, ↓reduceIte, Int.toNat_natCast]
    rw [recvMany_truncated]
    rw [← readBlocks_length _ (by decide)]
    simp only [List.length_take]; omega

theorem receiveFiles_truncated {H : Type} (sha : Bytes → H) {files : List File} (h : ∀ f ∈ files, Sendable f)
    (st : RecvState H) (k : Nat) (hk : k < (encodeFiles (files.map some)).frames.length) :
    receiveFiles sha files.length st ((encodeFiles (files.map some)).frames.take k) = .error .connectionClosed := by
  induction files generalizing st k with
  | nil => simp [encodeFiles] at hk
  | cons f fs ih =>
    obtain ⟨hd, h1, _⟩ := encodeFile_ok (h f (by simp))
    have hfr : (encodeFiles ((f :: fs).map some)).frames =
        (encodeFile (some f)).frames ++ (encodeFiles (fs.map some)).frames := by
      simp only [List.map_cons, encodeFiles, Sent.andThen, h1]
    rw [hfr] at hk ⊢
    simp only [List.length_append] at hk
    simp only [List.length_cons, receiveFiles, bind, Except.bind]
    rw [List.take_append]
    by_cases hlt : k < (encodeFile (some f)).frames.length
    · rw [show k - (encodeFile (some f)).frames.length = 0 by omega, List.take_zero, List.append_nil,
        receiveFile_truncated sha (h f (by simp)) st k hlt]
    · rw [List.take_of_length_le (by omega), receiveFile_encodeFile sha (h f (by simp))]
      exact ih (fun g hg => h g (by simp [hg])) _ _ (by omega)

/-- **C04** (truncation): if the connection breaks anywhere inside a request — after any number of frames short of all of them — the server
sees a closed connection and never a request. -/
theorem request_truncated {H : Type} (sha : Bytes → H) (command data : String) (files : List File)
    (h : RequestOk command data files) (st : RecvState H) (k : Nat)
    (hk : k < (clientEncode command data (files.map some)).frames.length) :
    serverDecode sha st ((clientEncode command data (files.map some)).frames.take k) = .error .connectionClosed := by
  obtain ⟨hc, hd, hf, hs⟩ := h
  have hok : HeaderOk [.int VERSION, .int (splitMessage data).1, .int (files.map some).length, .str command] LEN_HEADER :=
    ⟨[.int VERSION, .int (splitMessage data).1, .int (files.map some).length],
      .cons ⟨1, rfl, by decide⟩ (.cons ⟨_, rfl, hd⟩ (.cons ⟨_, rfl, by simpa using hf⟩ .nil)), Or.inr ⟨_, rfl⟩⟩
  obtain ⟨hdr, h1, h2⟩ := header_encodable _ _ hok
  have henc : clientEncode command data (files.map some) =
      ⟨hdr :: (splitMessage data).2 ++ (encodeFiles (files.map some)).frames, (encodeFiles (files.map some)).err⟩ := by
    unfold clientEncode
    simp only [h1, Sent.andThen]
  rw [henc] at hk ⊢
  simp only [List.cons_append, List.length_cons, List.length_append] at hk ⊢
  cases k with
  | zero => rfl
  | succ k =>
    unfold serverDecode
    simp only [List.take_succ_cons, recv, bind, Except.bind, h2, delivered, List.getLast?_cons_cons, List.getLast?_singleton,
      Option.some.injEq, Elem.str.injEq, hc, ↓reduceIte, ne_eq, not_true_eq_false, Int.toNat_natCast]
    rw [List.take_append]
    have hlen := (split_blocks_sized data BLOCK_SIZE (by decide)).1
    by_cases hlt : k < (splitMessage data).2.length
    · rw [show k - (splitMessage data).2.length = 0 by omega, List.take_zero, List.append_nil]
      unfold joinMessage
      rw [recvMany_truncated _ _ (by simp only [List.length_take]; omega)]
      rfl
    · rw [List.take_of_length_le (by omega)]
      have := split_join data BLOCK_SIZE (by decide)
        (((encodeFiles (files.map some)).frames).take (k - (splitMessage data).2.length))
      rw [this]
      simp only [List.length_map]
      rw [receiveFiles_truncated sha hs _ _ (by omega)]

/-- A list of requests as sent by a client over one connection. -/
abbrev ReqSpec := String × String × List File

/-- The frames of all requests, one after the other. -/
def sentStream (reqs : List ReqSpec) : List Bytes :=
  (reqs.map fun r => (clientEncode r.1 r.2.1 (r.2.2.map some)).frames).flatten

/-- The server's receive loop (communication_engine.py:78-82) for `n` iterations; the temporary directory is fresh (empty) in each
iteration, the hash table is kept. Collects command, data and directory of each request. -/
def serverLoop {H : Type} (sha : Bytes → H) : Nat → (String → Option H) → List Bytes →
    Except PyErr (List (String × String × (String → Option Bytes)) × (String → Option H) × List Bytes)
  | 0, hs, ws => .ok ([], hs, ws)
  | n + 1, hs, ws => do
    let (r, ws) ← serverDecode sha ⟨fun _ => none, hs⟩ ws
    let (rs, hs, ws) ← serverLoop sha n r.st.hashes ws
    .ok ((r.command, r.data, r.st.dir) :: rs, hs, ws)

/-- **C04** (streams): for any sequence of requests sent over one connection the server decodes exactly that sequence: the same
commands, the same payloads and for each request a directory with exactly the files of this request. -/
theorem request_stream {H : Type} (sha : Bytes → H) (reqs : List ReqSpec) (h : ∀ r ∈ reqs, RequestOk r.1 r.2.1 r.2.2)
    (hs : String → Option H) (rest : List Bytes) :
    ∃ hs', serverLoop sha reqs.length hs (sentStream reqs ++ rest) =
      .ok (reqs.map (fun r => (r.1, r.2.1, fun n => lastWithName n r.2.2)), hs', rest) := by
  induction reqs generalizing hs with
  | nil => exact ⟨hs, rfl⟩
  | cons r rs ih =>
    have hfr : sentStream (r :: rs) = (clientEncode r.1 r.2.1 (r.2.2.map some)).frames ++ sentStream rs := by
      simp [sentStream]
    obtain ⟨_, st', h1, h2, _⟩ := request_roundtrip sha r.1 r.2.1 r.2.2 (h r (by simp)) ⟨fun _ => none, hs⟩ (sentStream rs ++ rest)
    obtain ⟨hs', h3⟩ := ih (fun q hq => h q (by simp [hq])) st'.hashes
    refine ⟨hs', ?_⟩
    have hdir : st'.dir = fun n => lastWithName n r.2.2 := by
      funext n; rw [h2]; cases lastWithName n r.2.2 <;> rfl
    rw [hfr, List.append_assoc]
    simp only [List.length_cons, serverLoop, bind, Except.bind, List.map_cons]
    rw [h1]
    simp only [h3, hdir]

/-! ### C05 hash filtering -/

/-- The last existing file of the list with base name `n`. -/
def existing (files : List (Option File)) : List File := files.filterMap id

theorem checkHash_snd {H : Type} [DecidableEq H] (sha : Bytes → H) (f : File) (hs : String → Option H) :
    (checkHash sha f hs).2 = upd hs (basename f.path) (sha f.content) := by
  unfold checkHash
  simp only
  split
  · rename_i h' heq
    split
    · rename_i he
      subst he
      funext n
      unfold upd
      split
      · rename_i hn; subst hn; exact heq
      · rfl
    · rfl
  · rfl

theorem checkHash_fst {H : Type} [DecidableEq H] (sha : Bytes → H) (f : File) (hs : String → Option H) :
    (checkHash sha f hs).1 = true ↔ hs (basename f.path) = some (sha f.content) := by
  unfold checkHash
  simp only
  split
  · rename_i h' heq
    split
    · rename_i he; subst he; simp [heq]
    · rename_i he; simp [heq, he]
  · rename_i heq; simp [heq]

/-- **C05** (table): after filtering, the recorded hash of a base name is that of the last existing file of that name considered, and
unchanged if there was none. -/
theorem filter_hash_table {H : Type} [DecidableEq H] (sha : Bytes → H) (files : List (Option File)) (hs : String → Option H) (n : String) :
    (filterFiles sha files hs).2 n = ((lastWithName n (existing files)).map sha).or (hs n) := by
  induction files generalizing hs with
  | nil => simp [filterFiles, existing, lastWithName_nil]
  | cons f fs ih =>
    cases f with
    | none => simpa [filterFiles, existing] using ih hs
    | some f =>
      have h1 : (filterFiles sha (some f :: fs) hs).2 = (filterFiles sha fs (checkHash sha f hs).2).2 := by
        simp only [filterFiles]; split <;> rfl
      rw [h1, checkHash_snd, ih]
      have h2 : existing (some f :: fs) = f :: existing fs := rfl
      rw [h2, lastWithName_cons]
      by_cases hn : basename f.path = n
      · subst hn; cases lastWithName (basename f.path) (existing fs) <;> simp [upd]
      · cases lastWithName n (existing fs) <;> simp [upd, hn, Ne.symm hn]

/-- **C05** (decision): at every position of the list, the file there is transmitted iff it exists and the hash recorded at that moment (from
the preceding files of the list, or before) differs from its own; missing files are never transmitted. -/
theorem filter_decision {H : Type} [DecidableEq H] (sha : Bytes → H) (pre post : List (Option File)) (f : Option File)
    (hs : String → Option H) :
    ∃ a b, (filterFiles sha pre hs).1 = a ∧
      (filterFiles sha (pre ++ f :: post) hs).1 =
        a ++ (match f with
          | none => []
          | some f => if ((lastWithName (basename f.path) (existing pre)).map sha).or (hs (basename f.path)) = some (sha f.content)
              then [] else [f]) ++ b := by
  have happ : ∀ (xs ys : List (Option File)) hs, (filterFiles sha (xs ++ ys) hs).1 =
      (filterFiles sha xs hs).1 ++ (filterFiles sha ys (filterFiles sha xs hs).2).1 := by
    intro xs ys
    induction xs with
    | nil => intro hs; rfl
    | cons x xs ih =>
      intro hs
      cases x with
      | none => simpa [filterFiles] using ih hs
      | some x =>
        simp only [List.cons_append, filterFiles]
        split
        · rename_i hk; exact ih _
        · rename_i hk; simp only [List.cons_append]; rw [ih]
  refine ⟨_, (filterFiles sha post (filterFiles sha [f] (filterFiles sha pre hs).2).2).1, rfl, ?_⟩
  rw [show pre ++ f :: post = (pre ++ [f]) ++ post by simp, happ, happ]
  congr 1
  · congr 1
    cases f with
    | none => rfl
    | some f =>
      simp only
      rw [← filter_hash_table]
      simp only [filterFiles]
      by_cases hk : (filterFiles sha pre hs).2 (basename f.path) = some (sha f.content)
      · rw [if_pos hk, if_pos ((checkHash_fst _ _ _).2 hk)]
      · rw [if_neg hk, if_neg (fun hc => hk ((checkHash_fst _ _ _).1 hc))]
  · congr 2
    have : ∀ (xs ys : List (Option File)) hs, (filterFiles sha (xs ++ ys) hs).2 = (filterFiles sha ys (filterFiles sha xs hs).2).2 := by
      intro xs ys
      induction xs with
      | nil => intro hs; rfl
      | cons x xs ih =>
        intro hs
        cases x with
        | none => simpa [filterFiles] using ih hs
        | some x =>
          have h1 : ∀ l, (filterFiles sha (some x :: l) hs).2 = (filterFiles sha l (checkHash sha x hs).2).2 := by
            intro l; simp only [filterFiles]; split <;> rfl
          rw [List.cons_append, h1, h1, ih]
    exact this pre [f] hs

/-- The receiver's cumulative copies agree with the sender's hash table: whatever is recorded as known has actually been received. -/
def InSync {H : Type} (sha : Bytes → H) (copies : String → Option Bytes) (hs : String → Option H) : Prop :=
  ∀ n h, hs n = some h → ∃ c, copies n = some c ∧ sha c = h

/-- **C04** (responses) and **C05** (completeness): the client decodes exactly the response sent, consuming exactly the frames of the response.
If the hash table of the connection was in sync with what the receiver already has, then afterwards it is again, and for every existing
file of the response the receiver has (from this or an earlier transfer) a copy with the hash of the last version of that base name: a
file is only skipped if the receiver has it. -/
theorem response_roundtrip {H : Type} [DecidableEq H] (sha : Bytes → H) (hs : String → Option H) (response : String)
    (files : List (Option File)) (copies : String → Option Bytes) (rest : List Bytes)
    (hr : ceilDiv (utf8 response).length BLOCK_SIZE < 256 ^ 5) (hf : files.length < 256 ^ 2)
    (hsend : ∀ f ∈ existing files, Sendable f) (hsync : InSync sha copies hs) :
    (serverRespond sha hs response files).1.err = none ∧
    ∃ dir, clientDecode sha (fun _ => none) ((serverRespond sha hs response files).1.frames ++ rest) = .ok (response, dir, rest) ∧
      InSync sha (fun n => (dir n).or (copies n)) (serverRespond sha hs response files).2 ∧
      ∀ n c, lastWithName n (existing files) = some c → ∃ c', (dir n).or (copies n) = some c' ∧ sha c' = sha c := by
  obtain ⟨flt, hs', hflt⟩ : ∃ flt hs', filterFiles sha files hs = (flt, hs') := ⟨_, _, rfl⟩
  have hsub : ∀ (files : List (Option File)) hs, (filterFiles sha files hs).1.Sublist (existing files) := by
    intro files
    induction files with
    | nil => intro hs; exact .slnil
    | cons f fs ih =>
      intro hs
      cases f with
      | none => exact ih hs
      | some f =>
        simp only [filterFiles]
        split
        · exact .cons _ (ih _)
        · exact .cons_cons _ (ih _)
  have hsub' := hsub files hs
  rw [hflt] at hsub'
  have hlen : flt.length ≤ files.length := by
    have h1 := hsub'.length_le
    have h2 : (existing files).length ≤ files.length := List.length_filterMap_le _ _
    simp only at h1
    omega
  have hsendf : ∀ f ∈ flt, Sendable f := fun f hfm => hsend f (hsub'.subset hfm)
  have hok : HeaderOk [.int VERSION, .int (splitMessage response).1, .int flt.length] LEN_HEADER :=
    ⟨_, .cons ⟨1, rfl, by decide⟩ (.cons ⟨_, rfl, hr⟩ (.cons ⟨_, rfl, by omega⟩ .nil)), Or.inl rfl⟩
  obtain ⟨hdr, h1, h2⟩ := header_encodable _ _ hok
  have hresp : serverRespond sha hs response files =
      (⟨hdr :: (splitMessage response).2 ++ (encodeFiles (flt.map some)).frames, (encodeFiles (flt.map some)).err⟩, hs') := by
    unfold serverRespond
    rw [hflt]
    simp only [h1, Sent.andThen]
  obtain ⟨e1, st', e2, e3, _⟩ := files_roundtrip sha flt hsendf ⟨fun _ => none, fun _ => none⟩ rest
  rw [hresp]
  refine ⟨e1, st'.dir, ?_, ?_⟩
  · unfold clientDecode
    simp only [List.cons_append, recv, bind, Except.bind, h2, delivered, List.getLast?_cons_cons, List.getLast?_singleton,
      Option.some.injEq, reduceCtorEq, ↓reduceIte, List.append_assoc, Int.toNat_natCast]
    rw [split_join response BLOCK_SIZE (by decide)]
    simp only
    rw [e2]
  · -- sync
    have hdir : ∀ n, st'.dir n = lastWithName n flt := by
      intro n; rw [e3]; cases lastWithName n flt <;> rfl
    have main : ∀ (files : List (Option File)) (hs : String → Option H) (copies : String → Option Bytes), InSync sha copies hs →
        InSync sha (fun n => (lastWithName n (filterFiles sha files hs).1).or (copies n)) (filterFiles sha files hs).2 := by
      intro files
      induction files with
      | nil => intro hs copies h; simpa [filterFiles, lastWithName_nil, InSync] using h
      | cons f fs ih =>
        intro hs copies h
        cases f with
        | none => simpa [filterFiles] using ih hs copies h
        | some f =>
          have hc2 : (filterFiles sha (some f :: fs) hs).2 = (filterFiles sha fs (checkHash sha f hs).2).2 := by
            simp only [filterFiles]; split <;> rfl
          by_cases hk : (checkHash sha f hs).1 = true
          · have hc1 : (filterFiles sha (some f :: fs) hs).1 = (filterFiles sha fs (checkHash sha f hs).2).1 := by
              simp [filterFiles, hk]
            rw [hc1, hc2]
            apply ih
            intro n h' hn
            rw [checkHash_snd] at hn
            unfold upd at hn
            split at hn
            · rename_i he
              subst he
              obtain ⟨c, hc, hcs⟩ := h _ _ ((checkHash_fst _ _ _).1 hk)
              exact ⟨c, hc, by rw [hcs]; exact Option.some.inj hn⟩
            · exact h n h' hn
          · have hc1 : (filterFiles sha (some f :: fs) hs).1 = f :: (filterFiles sha fs (checkHash sha f hs).2).1 := by
              simp [filterFiles, hk]
            rw [hc1, hc2]
            have := ih (checkHash sha f hs).2 (upd copies (basename f.path) f.content) (by
              intro n h' hn
              rw [checkHash_snd] at hn
              unfold upd at hn ⊢
              split at hn
              · rename_i he
                exact ⟨f.content, by simp [he], Option.some.inj hn⟩
              · rename_i he
                simpa [he] using h n h' hn)
            intro n h' hn
            obtain ⟨c, hc, hcs⟩ := this n h' hn
            refine ⟨c, ?_, hcs⟩
            rw [← hc]
            simp only [lastWithName_cons]
            by_cases hbn : basename f.path = n
            · subst hbn
              cases lastWithName (basename f.path) (filterFiles sha fs (checkHash sha f hs).2).1 <;> simp [upd]
            · cases lastWithName n (filterFiles sha fs (checkHash sha f hs).2).1 <;> simp [upd, hbn, Ne.symm hbn]
    have hmain := main files hs copies hsync
    rw [hflt] at hmain
    simp only at hmain
    have hmain' : InSync sha (fun n => (st'.dir n).or (copies n)) hs' := by
      intro n h' hn
      simp only [hdir]
      exact hmain n h' hn
    refine ⟨hmain', ?_⟩
    intro n c hc
    have htab := filter_hash_table sha files hs n
    rw [hflt, hc] at htab
    exact hmain' n (sha c) (by simpa using htab)

/-- Hypotheses of `response_roundtrip` for a fresh connection and a response with one file and one missing path. -/
example : InSync (id : Bytes → Bytes) (fun _ => none) (fun _ => none) ∧
    ∀ f ∈ existing [some ⟨"/x/a.txt", [1, 2]⟩, none], Sendable f := by
  refine ⟨(by intro n h hn; cases hn), ?_⟩
  intro f hf
  simp only [existing, List.filterMap_cons, id, List.filterMap_nil, List.mem_singleton] at hf
  subst hf
  decide +kernel

/-- Sending stops at the first file that does not exist. -/
theorem encodeFiles_missing {pre : List File} (h : ∀ f ∈ pre, Sendable f) (post : List (Option File)) :
    encodeFiles (pre.map some ++ none :: post) = ⟨(encodeFiles (pre.map some)).frames, some .fileNotFoundError⟩ := by
  induction pre with
  | nil => rfl
  | cons f fs ih =>
    obtain ⟨hd, h1, _⟩ := encodeFile_ok (h f (by simp))
    have := ih (fun g hg => h g (by simp [hg]))
    simp only [List.map_cons, List.cons_append, encodeFiles, this, Sent.andThen, h1]

theorem receiveFiles_short {H : Type} (sha : Bytes → H) {files : List File} (h : ∀ f ∈ files, Sendable f) (st : RecvState H) (k : Nat) :
    receiveFiles sha (files.length + (k + 1)) st (encodeFiles (files.map some)).frames = .error .connectionClosed := by
  induction files generalizing st with
  | nil =>
    rw [List.length_nil, Nat.zero_add]
    rfl
  | cons f fs ih =>
    obtain ⟨hd, h1, _⟩ := encodeFile_ok (h f (by simp))
    have hfr : (encodeFiles ((f :: fs).map some)).frames =
        (encodeFile (some f)).frames ++ (encodeFiles (fs.map some)).frames := by
      simp only [List.map_cons, encodeFiles, Sent.andThen, h1]
    rw [hfr, List.length_cons, show fs.length + 1 + (k + 1) = (fs.length + (k + 1)) + 1 by omega]
    simp only [receiveFiles, bind, Except.bind]
    rw [receiveFile_encodeFile sha (h f (by simp))]
    exact ih (fun g hg => h g (by simp [hg])) _

/-- **C04** (missing file): if a file to be sent does not exist, sending raises FileNotFoundError; what was sent before is the request up to that file and
nothing after it, and a server that sees only this much never executes the request. -/
theorem missing_file_stops_request {H : Type} (sha : Bytes → H) (command data : String) (pre : List File) (post : List (Option File))
    (h : RequestOk command data pre) (hn : pre.length + 1 + post.length < 256 ^ 2) (st : RecvState H) :
    (clientEncode command data (pre.map some ++ none :: post)).err = some .fileNotFoundError ∧
    (clientEncode command data (pre.map some ++ none :: post)).frames.tail = (clientEncode command data (pre.map some)).frames.tail ∧
    serverDecode sha st (clientEncode command data (pre.map some ++ none :: post)).frames = .error .connectionClosed := by
  obtain ⟨hc, hd, hf, hs⟩ := h
  have hlen : (pre.map some ++ none :: post).length = pre.length + (post.length + 1) := by simp
  have hok : HeaderOk [.int VERSION, .int (splitMessage data).1, .int (pre.map some ++ none :: post).length, .str command] LEN_HEADER :=
    ⟨[.int VERSION, .int (splitMessage data).1, .int (pre.map some ++ none :: post).length],
      .cons ⟨1, rfl, by decide⟩ (.cons ⟨_, rfl, hd⟩ (.cons ⟨_, rfl, by rw [hlen]; omega⟩ .nil)), Or.inr ⟨_, rfl⟩⟩
  have hok' : HeaderOk [.int VERSION, .int (splitMessage data).1, .int (pre.map some).length, .str command] LEN_HEADER :=
    ⟨[.int VERSION, .int (splitMessage data).1, .int (pre.map some).length],
      .cons ⟨1, rfl, by decide⟩ (.cons ⟨_, rfl, hd⟩ (.cons ⟨_, rfl, by simpa using hf⟩ .nil)), Or.inr ⟨_, rfl⟩⟩
  obtain ⟨hdr, h1, h2⟩ := header_encodable _ _ hok
  obtain ⟨hdr', h1', _⟩ := header_encodable _ _ hok'
  have henc : clientEncode command data (pre.map some ++ none :: post) =
      ⟨hdr :: (splitMessage data).2 ++ (encodeFiles (pre.map some)).frames, some .fileNotFoundError⟩ := by
    unfold clientEncode
    simp only [h1, Sent.andThen, encodeFiles_missing hs]
  have henc' : (clientEncode command data (pre.map some)).frames = hdr' :: (splitMessage data).2 ++ (encodeFiles (pre.map some)).frames := by
    unfold clientEncode
    simp only [h1', Sent.andThen]
  rw [henc, henc']
  refine ⟨rfl, rfl, ?_⟩
  unfold serverDecode
  simp only [List.cons_append, recv, bind, Except.bind, h2, delivered, List.getLast?_cons_cons, List.getLast?_singleton,
    Option.some.injEq, Elem.str.injEq, hc, ↓reduceIte, ne_eq, not_true_eq_false, Int.toNat_natCast]
  rw [split_join data BLOCK_SIZE (by decide)]
  simp only [hlen]
  rw [receiveFiles_short sha hs]

/-- The hypotheses are met by a request with a file before and a file after the missing one. -/
example : RequestOk "run" "{}" [⟨"/tmp/a.txt", [1, 2]⟩] ∧ [(⟨"/tmp/a.txt", [1, 2]⟩ : File)].length + 1 + [some (⟨"/tmp/b.txt", [3]⟩ : File)].length < 256 ^ 2 := by
  refine ⟨⟨by decide, by decide +kernel, by decide, ?_⟩, by decide⟩
  intro f hf
  simp only [List.mem_singleton] at hf
  subst hf
  decide +kernel

/-- Observation (engine level): the client does not filter its files. If a path handed to `send` does not exist, FileNotFoundError is raised after
the header and data were sent; the next request on that connection is then misread: the server waits for file blocks instead of executing it. -/
theorem missing_file_desyncs_connection :
    (clientEncode "a" "{}" [none]).err = some .fileNotFoundError ∧
    (clientEncode "b" "{}" []).err = none ∧
    (serverLoop (H := Unit) (fun _ => ()) 2 (fun _ => none)
      ((clientEncode "a" "{}" [none]).frames ++ (clientEncode "b" "{}" []).frames)).map (fun _ => ()) = .error .connectionClosed := by
  refine ⟨by decide +kernel, by decide +kernel, by decide +kernel⟩

end Osp.Wire
