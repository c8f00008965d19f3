import Verif.Wire.Model
/-!
# Headers that are too short or too long (C01, C04)
-/
namespace Osp.Wire

theorem decode_short : ∀ (ws : List Nat) (b : Bytes), b.length < ws.sum → decodeHeader b ws = .error .indexError
  | [], b, h => by simp at h
  | w :: ws, b, h => by
    unfold decodeHeader
    split
    · rfl
    · rename_i hw
      rw [List.sum_cons] at h
      rw [decode_short ws (b.drop w) (by rw [List.length_drop]; omega)]
      rfl

/-- The numbers in the header. -/
def ints : List Nat → Bytes → List Elem
  | [], _ => []
  | w :: ws, b => .int (fromBytes (b.take w)) :: ints ws (b.drop w)

theorem decode_long : ∀ (ws : List Nat) (b : Bytes), ws.sum ≤ b.length → decodeHeader b ws = match decodeHeader (b.drop ws.sum) [] with
    | .error e => .error e
    | .ok r => .ok (ints ws b ++ r)
  | [], b, _ => by
    simp only [List.sum_nil, List.drop_zero, ints, List.nil_append]
    cases decodeHeader b [] <;> rfl
  | w :: ws, b, h => by
    rw [List.sum_cons] at h
    conv => lhs; unfold decodeHeader
    rw [if_neg (by omega), decode_long ws (b.drop w) (by rw [List.length_drop]; omega), List.drop_drop, List.sum_cons]
    cases decodeHeader (b.drop (w + ws.sum)) [] <;> rfl

theorem ints_header (b : Bytes) : ∃ x y z, ints LEN_HEADER b = [.int x, .int y, .int z] := ⟨_, _, _, rfl⟩

/-- **C04.** A request is only accepted with a header of the fixed length followed by the name of the command: shorter headers raise an IndexError, a header without command
a ValueError, a command that is no UTF-8 a UnicodeDecodeError, another protocol version a NotImplementedError. Nothing more is read in these cases. -/
theorem server_bad_header {H : Type} (sha : Bytes → H) (st : RecvState H) (h : Bytes) (ws : List Bytes) :
    (h.length < LEN_HEADER.sum → serverDecode sha st (h :: ws) = .error .indexError) ∧
    (h.length = LEN_HEADER.sum → serverDecode sha st (h :: ws) = .error .valueError) ∧
    (LEN_HEADER.sum < h.length → unutf8 (h.drop LEN_HEADER.sum) = none → serverDecode sha st (h :: ws) = .error .unicodeDecodeError) ∧
    (∀ command, LEN_HEADER.sum < h.length → unutf8 (h.drop LEN_HEADER.sum) = some command → (fromBytes (h.take (LEN_HEADER.headD 0)) : Int) ≠ VERSION →
      serverDecode sha st (h :: ws) = .error .notImplementedError) := by
  refine ⟨fun hl => ?_, fun hl => ?_, fun hl hu => ?_, fun c hl hu hv => ?_⟩
  · simp only [serverDecode, recv, Except.bind, bind, decode_short _ _ hl]
  · obtain ⟨x, y, z, e⟩ := ints_header h
    have hd : decodeHeader (h.drop LEN_HEADER.sum) [] = .ok [] := by
      rw [← hl, List.drop_length]; rfl
    simp only [serverDecode, recv, Except.bind, bind, decode_long LEN_HEADER h (by omega), hd, e, List.append_nil]
  · have hd : decodeHeader (h.drop LEN_HEADER.sum) [] = .error .unicodeDecodeError := by
      unfold decodeHeader
      rw [if_pos (by rw [List.length_drop]; omega), hu]
    simp only [serverDecode, recv, Except.bind, bind, decode_long LEN_HEADER h (by omega), hd]
  · have hd : decodeHeader (h.drop LEN_HEADER.sum) [] = .ok [.str c] := by
      unfold decodeHeader
      rw [if_pos (by rw [List.length_drop]; omega), hu]
    have e : ints LEN_HEADER h = [.int (fromBytes (h.take (LEN_HEADER.headD 0))), .int (fromBytes ((h.drop (LEN_HEADER.headD 0)).take (LEN_HEADER.getD 1 0))),
        .int (fromBytes (((h.drop (LEN_HEADER.headD 0)).drop (LEN_HEADER.getD 1 0)).take (LEN_HEADER.getD 2 0)))] := rfl
    simp only [serverDecode, recv, Except.bind, bind, decode_long LEN_HEADER h (by omega), hd, e, List.cons_append, List.nil_append, ne_eq, hv, not_false_iff, if_true]

/-- **C04.** A response is only accepted with a header of exactly the fixed length; the client does not look at the version. -/
theorem client_bad_header {H : Type} (sha : Bytes → H) (dir : String → Option Bytes) (h : Bytes) (ws : List Bytes) :
    (h.length < LEN_HEADER.sum → clientDecode sha dir (h :: ws) = .error .indexError) ∧
    (∀ t, LEN_HEADER.sum < h.length → unutf8 (h.drop LEN_HEADER.sum) = some t → clientDecode sha dir (h :: ws) = .error .valueError) ∧
    (LEN_HEADER.sum < h.length → unutf8 (h.drop LEN_HEADER.sum) = none → clientDecode sha dir (h :: ws) = .error .unicodeDecodeError) ∧
    clientDecode sha dir [] = .error .connectionClosed := by
  refine ⟨fun hl => ?_, fun t hl hu => ?_, fun hl hu => ?_, rfl⟩
  · simp only [clientDecode, recv, Except.bind, bind, decode_short _ _ hl]
  · obtain ⟨x, y, z, e⟩ := ints_header h
    have hd : decodeHeader (h.drop LEN_HEADER.sum) [] = .ok [.str t] := by
      unfold decodeHeader
      rw [if_pos (by rw [List.length_drop]; omega), hu]
    simp only [clientDecode, recv, Except.bind, bind, decode_long LEN_HEADER h (by omega), hd, e, List.cons_append, List.nil_append]
  · have hd : decodeHeader (h.drop LEN_HEADER.sum) [] = .error .unicodeDecodeError := by
      unfold decodeHeader
      rw [if_pos (by rw [List.length_drop]; omega), hu]
    simp only [clientDecode, recv, Except.bind, bind, decode_long LEN_HEADER h (by omega), hd]

/-- **C01.** A file header that is too short is an IndexError; one without a name after the number of blocks is a ValueError. -/
theorem file_bad_header {H : Type} (sha : Bytes → H) (st : RecvState H) (h : Bytes) (ws : List Bytes) :
    (h.length < LEN_FILES_HEADER.sum → receiveFile sha st (h :: ws) = .error .indexError) ∧ (h.length = LEN_FILES_HEADER.sum → receiveFile sha st (h :: ws) = .error .valueError) := by
  constructor
  · intro hl
    simp only [receiveFile, recv, Except.bind, bind, decode_short _ _ hl]
  · intro hl
    have e : ints LEN_FILES_HEADER h = [.int (fromBytes (h.take (LEN_FILES_HEADER.headD 0)))] := rfl
    have hd : decodeHeader (h.drop LEN_FILES_HEADER.sum) [] = .ok [] := by
      unfold decodeHeader
      rw [if_neg (by rw [List.length_drop]; omega)]
    simp only [receiveFile, recv, Except.bind, bind, decode_long LEN_FILES_HEADER h (by omega), hd, e, List.append_nil]

end Osp.Wire
