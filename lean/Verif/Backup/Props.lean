import Verif.Backup.Spec
import Mathlib.Data.List.Range
import Mathlib.Data.List.Nodup
import Mathlib.Data.List.Perm.Subperm
/-!
# A conversion in place keeps the original (C105)
-/
namespace Osp.Backup
open Osp.Camel Osp.Yaml

variable {E : Env} {d : Disk}

/-! ### free names -/

theorem dec_inj {a b : Nat} (h : dec a = dec b) : a = b := by
  have := congrArg pyInt h
  rw [pyInt_dec, pyInt_dec] at this
  exact Int.ofNat.inj (Option.some.inj this)

theorem cand_inj (x : Text) : ∀ {j k : Nat}, cand x j = cand x k → j = k
  | 0, 0, _ => rfl
  | 0, k + 1, h => by
    dsimp only [cand] at h
    rw [List.append_assoc, List.append_assoc] at h
    have := congrArg List.length (List.append_cancel_left h)
    simp at this
  | j + 1, 0, h => by
    dsimp only [cand] at h
    rw [List.append_assoc, List.append_assoc] at h
    have := congrArg List.length (List.append_cancel_left h)
    simp at this
  | j + 1, k + 1, h => by
    dsimp only [cand] at h
    rw [List.append_assoc, List.append_assoc, List.append_assoc, List.append_assoc] at h
    have := List.append_cancel_left (List.append_cancel_left h)
    rw [dec_inj (List.append_cancel_right this)]

theorem search_from (x : Text) : ∀ (fuel k : Nat) (b : Text), search E d x k fuel = some b →
    ∃ j, k ≤ j ∧ b = cand x j ∧ d (E.leads b) = .absent ∧ ∀ i, k ≤ i → i < j → d (E.leads (cand x i)) ≠ .absent
  | 0, _, _, h => (nomatch h)
  | fuel + 1, k, b, h => by
    unfold search at h
    by_cases he : existing E d (cand x k) = true
    · rw [if_pos he] at h
      obtain ⟨j, h1, h2, h3, h4⟩ := search_from x fuel (k + 1) b h
      refine ⟨j, by omega, h2, h3, fun i q1 q2 => ?_⟩
      rcases Nat.eq_or_lt_of_le q1 with q | q
      · subst q
        unfold existing at he
        simpa using he
      · exact h4 i q q2
    · rw [if_neg he] at h
      obtain rfl := Option.some.inj h
      refine ⟨k, Nat.le_refl k, rfl, ?_, fun i q1 q2 => by omega⟩
      unfold existing at he
      simpa using he

theorem search_none (x : Text) : ∀ (fuel k : Nat), search E d x k fuel = none → ∀ i, i < fuel → d (E.leads (cand x (k + i))) ≠ .absent
  | 0, _, _, _, h => by omega
  | fuel + 1, k, h, i, hi => by
    unfold search at h
    by_cases he : existing E d (cand x k) = true
    · rw [if_pos he] at h
      cases i with
      | zero =>
        unfold existing at he
        simpa using he
      | succ i =>
        have := search_none x fuel (k + 1) h i (by omega)
        rw [show k + (i + 1) = k + 1 + i by omega]
        exact this
    · rw [if_neg he] at h; exact (nomatch h)

/-- **C105.** The name of the backup is the first one that is free. -/
theorem search_first (x b : Text) (fuel : Nat) (h : search E d x 0 fuel = some b) : FirstFree E d x b := by
  obtain ⟨j, -, h2, h3, h4⟩ := search_from x fuel 0 b h
  exact ⟨j, h2, h3, fun i hi => h4 i (Nat.zero_le i) hi⟩

/-- **C105.** Looking for a free name ends: after at most one round more than there are backups. -/
theorem search_ends (x : Text) (n fuel : Nat) (h : AtMost E d x n) (hf : n < fuel) : ∃ b, search E d x 0 fuel = some b := by
  cases hs : search E d x 0 fuel with
  | some b => exact ⟨b, rfl⟩
  | none =>
    exfalso
    obtain ⟨l, hl, hin⟩ := h
    have hall := search_none x fuel 0 hs
    have hsub : ∀ t ∈ (List.range fuel).map (cand x), t ∈ l := by
      intro t ht
      obtain ⟨i, hi, rfl⟩ := List.mem_map.1 ht
      have := hall i (List.mem_range.1 hi)
      rw [Nat.zero_add] at this
      exact hin i this
    have hnd : ((List.range fuel).map (cand x)).Nodup := List.Nodup.map (fun a b q => cand_inj x q) List.nodup_range
    have := (hnd.subperm (fun _ h => hsub _ h)).length_le
    rw [List.length_map, List.length_range] at this
    omega

/-! ### writing -/

theorem append_all (p : Place) : ∀ (l : List Text) (d : Disk) (a : Text), d p = .file a →
    ((l.map (FileOp.append p)).foldl FileOp.run d) p = .file (a ++ l.flatten) ∧ ∀ q, q ≠ p → ((l.map (FileOp.append p)).foldl FileOp.run d) q = d q
  | [], d, a, h => ⟨by simpa using h, fun _ _ => rfl⟩
  | t :: l, d, a, h => by
    have hr : FileOp.run d (.append p t) = Function.update d p (.file (a ++ t)) := by
      simp only [FileOp.run, h]
    obtain ⟨h1, h2⟩ := append_all p l (Function.update d p (.file (a ++ t))) (a ++ t) (Function.update_self ..)
    refine ⟨?_, fun q hq => ?_⟩
    · rw [List.map_cons, List.foldl_cons, hr, h1, List.flatten_cons, List.append_assoc]
    · rw [List.map_cons, List.foldl_cons, hr, h2 q hq, Function.update_of_ne hq]

/-- Creating or emptying a file and writing pieces. -/
theorem start_append (p : Place) (l : List Text) (d : Disk) :
    ((FileOp.start p :: l.map (FileOp.append p)).foldl FileOp.run d) p = .file l.flatten ∧ ∀ q, q ≠ p → ((FileOp.start p :: l.map (FileOp.append p)).foldl FileOp.run d) q = d q := by
  obtain ⟨h1, h2⟩ := append_all p l (Function.update d p (.file [])) [] (Function.update_self ..)
  refine ⟨?_, fun q hq => ?_⟩
  · rw [List.foldl_cons]
    exact h1
  · rw [List.foldl_cons]
    exact (h2 q hq).trans (Function.update_of_ne hq _ _)

/-- Proof device; nothing in /repo: the state after some of the operations. -/
structure Wrote (p : Place) (l : List Text) (all : Bool) (d d' : Disk) : Prop where
  others : ∀ q, q ≠ p → d' q = d q
  all : all = true → d' p = .file l.flatten
  some : d' p = d p ∨ ∃ a c, d' p = .file a ∧ a ++ c = l.flatten

theorem execute_wrote (p : Place) (l : List Text) (n : Option Nat) (d : Disk) :
    Wrote p l (execute (.start p :: l.map (.append p)) n d).1 d (execute (.start p :: l.map (.append p)) n d).2 := by
  cases n with
  | none =>
    obtain ⟨h1, h2⟩ := start_append p l d
    exact ⟨h2, fun _ => h1, Or.inr ⟨l.flatten, [], h1, List.append_nil _⟩⟩
  | some n =>
    cases n with
    | zero => exact ⟨fun _ _ => rfl, fun h => by simp [execute] at h, Or.inl rfl⟩
    | succ n =>
      have e : (FileOp.start p :: l.map (FileOp.append p)).take (n + 1) = FileOp.start p :: (l.take n).map (FileOp.append p) := by
        rw [List.take_succ_cons, List.map_take]
      have he : (execute (.start p :: l.map (.append p)) (some (n + 1)) d).2 = (FileOp.start p :: (l.take n).map (FileOp.append p)).foldl FileOp.run d := by
        unfold execute
        dsimp only
        rw [e]
      obtain ⟨h1, h2⟩ := start_append p (l.take n) d
      rw [← he] at h1 h2
      refine ⟨h2, fun h => ?_, Or.inr ⟨_, (l.drop n).flatten, h1, ?_⟩⟩
      · have hl : l.length ≤ n := by simpa [execute] using h
        rw [h1, List.take_of_length_le hl]
      · rw [← List.flatten_append, List.take_append_drop]

/-- Proof device; nothing in /repo: writing a document. -/
structure Written (p : Place) (new : Text) (e : End) (d d' : Disk) : Prop where
  others : ∀ q, q ≠ p → d' q = d q
  done : e = .done → d' p = .file new
  raised : ∀ x, e = .raised x → d' = d
  some : d' p = d p ∨ ∃ a c, d' p = .file a ∧ a ++ c = new

theorem writeDoc_written (pieces : List Text) (out : Text) (n : Option Nat) (d : Disk) :
    Written (E.leads out) pieces.flatten (writeDoc E pieces out n d).1 d (writeDoc E pieces out n d).2 := by
  have key : ∀ ops, ops = FileOp.start (E.leads out) :: pieces.map (.append (E.leads out)) → Written (E.leads out) pieces.flatten
      (match execute ops n d with | (true, d) => (End.done, d) | (false, d) => (.interrupted, d)).1 d
      (match execute ops n d with | (true, d) => (End.done, d) | (false, d) => (.interrupted, d)).2 := by
    rintro ops rfl
    have k := execute_wrote (E.leads out) pieces n d
    revert k
    generalize execute (FileOp.start (E.leads out) :: pieces.map (.append (E.leads out))) n d = y
    obtain ⟨b, d'⟩ := y
    intro k
    cases b with
    | true => exact ⟨k.others, fun _ => k.all rfl, fun _ h => (nomatch h), k.some⟩
    | false => exact ⟨k.others, fun h => (nomatch h), fun _ h => (nomatch h), k.some⟩
  have same : ∀ e : PyErr, Written (E.leads out) pieces.flatten (.raised e) d d := fun e => ⟨fun _ _ => rfl, fun h => (nomatch h), fun _ _ => rfl, Or.inl rfl⟩
  unfold writeDoc writing
  cases d (E.leads out) with
  | dir => exact same _
  | absent =>
    by_cases hc : E.creatable (E.leads out) = true
    · simp only [hc, if_true]
      exact key _ rfl
    · simp only [hc]
      exact same _
  | file t => exact key _ rfl

/-- Backing up and writing. -/
theorem copyThen_kept (hE : Faithful E) (pieces : List Text) (x orig : Text) (n : Option Nat) {t : Text} (ht : d (E.leads x) = .file t) (hf : d (E.leads orig) = .absent) :
    Kept (E.leads x) (E.leads orig) t pieces.flatten (copyThen E pieces x orig n d).1 d (copyThen E pieces x orig n d).2 := by
  have hpb : E.leads x ≠ E.leads orig := by
    intro q
    rw [q, hf] at ht
    exact (nomatch ht)
  unfold copyThen writing
  rw [ht, hf]
  dsimp only
  by_cases hc : E.creatable (E.leads orig) = true
  · rw [if_pos hc]
    dsimp only
    have k := execute_wrote (E.leads orig) (E.pieces t) n d
    revert k
    generalize execute (FileOp.start (E.leads orig) :: (E.pieces t).map (.append (E.leads orig))) n d = y
    obtain ⟨b, d1⟩ := y
    intro k
    have h1 : d1 (E.leads x) = .file t := (k.others _ hpb).trans ht
    cases b with
    | false => exact ⟨hf, fun q _ q2 => k.others q q2, Or.inl h1, fun h => absurd h1 h, fun h => (nomatch h), fun _ h => (nomatch h), fun _ => Or.inl h1⟩
    | true =>
      have hb : d1 (E.leads orig) = .file t := (k.all rfl).trans (by rw [hE t])
      dsimp only
      have w := writeDoc_written (E := E) pieces x (later n (FileOp.start (E.leads orig) :: (E.pieces t).map (.append (E.leads orig))).length) d1
      have hr : ∀ z, (writeDoc E pieces x (later n (FileOp.start (E.leads orig) :: (E.pieces t).map (.append (E.leads orig))).length) d1).1 ≠ .raised z := by
        intro z
        unfold writeDoc writing
        rw [h1]
        dsimp only
        split <;> simp
      revert w hr
      generalize writeDoc E pieces x _ d1 = y
      obtain ⟨e, d2⟩ := y
      intro w hr
      have hb2 : d2 (E.leads orig) = .file t := (w.others _ (Ne.symm hpb)).trans hb
      refine ⟨hf, fun q q1 q2 => (w.others q q1).trans (k.others q q2), Or.inr hb2, fun _ => hb2, fun h => ⟨w.done h, hb2⟩, fun z h => absurd h (hr z), fun _ => ?_⟩
      rcases w.some with q | q
      · exact Or.inl (q.trans h1)
      · exact Or.inr q
  · rw [if_neg hc]
    exact ⟨hf, fun _ _ _ => rfl, Or.inl ht, fun h => absurd ht h, fun h => (nomatch h), fun _ _ => rfl, fun h => (nomatch h)⟩

theorem store_in_place {x : Arg} {output : Option Arg} (h : InPlace x output) (fuel : Nat) (pieces : List Text) (n : Option Nat) (d : Disk) :
    store E fuel x pieces output n d = (search E d x.text 0 fuel).map fun orig => copyThen E pieces x.text orig n d := by
  have e : (if omitted output then x else output.getD x) = x := by
    rcases h with rfl | rfl | rfl
    · rfl
    · rfl
    · dsimp only [Option.getD]; split <;> rfl
  unfold store
  dsimp only
  rw [e, if_pos rfl]
  cases search E d x.text 0 fuel <;> rfl

/-- **C105.** A conversion in place, interrupted anywhere or not: the backup goes to the first free name; no other file is changed; the original text is in the file or, completely, in the
backup, and the file is not touched before that; if the call ends normally, the file has the converted text and the backup the original; if it raises an exception before it has
written anything, nothing is changed. Partial: the output must be left out or be given as the path of the file was; `alias_loses_original` shows that another spelling of the path is not recognised. -/
theorem in_place_partial (hE : Faithful E) {x : Arg} {output : Option Arg} (ho : InPlace x output) (fuel : Nat) (pieces : List Text) (n : Option Nat) {t : Text} (ht : d (E.leads x.text) = .file t)
    {e : End} {d' : Disk} (h : store E fuel x pieces output n d = some (e, d')) : ∃ b, FirstFree E d x.text b ∧ Kept (E.leads x.text) (E.leads b) t pieces.flatten e d d' := by
  rw [store_in_place ho] at h
  cases hs : search E d x.text 0 fuel with
  | none => rw [hs] at h; exact (nomatch h)
  | some b =>
    rw [hs] at h
    have hf := search_first x.text b fuel hs
    obtain ⟨k, -, h3, -⟩ := id hf
    have q := copyThen_kept hE pieces x.text b n ht h3
    rw [show copyThen E pieces x.text b n d = (e, d') from Option.some.inj h] at q
    exact ⟨b, hf, q⟩

/-- **C105.** A conversion in place that is not interrupted succeeds if a file may be created at the place of the backup, in a directory with finitely many files. -/
theorem in_place_succeeds (hE : Faithful E) {x : Arg} {output : Option Arg} (ho : InPlace x output) (k fuel : Nat) (hk : AtMost E d x.text k) (hf : k < fuel) (hc : ∀ b, E.creatable (E.leads b) = true)
    (pieces : List Text) {t : Text} (ht : d (E.leads x.text) = .file t) :
    ∃ b d', store E fuel x pieces output none d = some (.done, d') ∧ FirstFree E d x.text b ∧ Kept (E.leads x.text) (E.leads b) t pieces.flatten .done d d' := by
  obtain ⟨b, hb⟩ := search_ends x.text k fuel hk hf
  have hs : store E fuel x pieces output none d = some (copyThen E pieces x.text b none d) := by rw [store_in_place ho, hb]; rfl
  have hff := search_first x.text b fuel hb
  obtain ⟨_, -, hfree, -⟩ := id hff
  have hpb : E.leads x.text ≠ E.leads b := by
    intro q
    rw [q, hfree] at ht
    exact (nomatch ht)
  have he : (copyThen E pieces x.text b none d).1 = .done := by
    unfold copyThen writing
    rw [ht, hfree]
    dsimp only
    rw [if_pos (hc b)]
    dsimp only [execute]
    have h1 := (start_append (E.leads b) (E.pieces t) d).2 _ hpb
    unfold writeDoc writing
    rw [h1, ht]
    rfl
  have q := copyThen_kept hE pieces x.text b none ht hfree
  rw [he] at q
  exact ⟨b, _, by rw [hs, ← he], hff, q⟩

/-- **C105.** With another path as output only the file there is written: if that is another place, the original is as before and there is no backup; wherever it was interrupted, no other file
is changed. -/
theorem elsewhere {x o : Arg} (ho : ¬ InPlace x (some o)) (fuel : Nat) (pieces : List Text) (n : Option Nat) {e : End} {d' : Disk} (h : store E fuel x pieces (some o) n d = some (e, d')) :
    (∀ q, q ≠ E.leads o.text → d' q = d q) ∧ (e = .done → d' (E.leads o.text) = .file pieces.flatten) ∧ ∀ z, e = .raised z → d' = d := by
  unfold InPlace at ho
  push Not at ho
  obtain ⟨-, ho1, ho2⟩ := ho
  have e1 : (if omitted (some o) then x else (some o).getD x) = o := by
    have : omitted (some o) = false := by
      cases o with
      | path t => rfl
      | str t => cases t with
        | nil => exact absurd rfl ho1
        | cons a b => rfl
    rw [this]
    rfl
  unfold store at h
  dsimp only at h
  rw [e1, if_neg (fun q => ho2 (by rw [q]))] at h
  have w := writeDoc_written (E := E) pieces o.text n d
  rw [show writeDoc E pieces o.text n d = (e, d') from Option.some.inj h] at w
  exact ⟨w.others, w.done, w.raised⟩

/-! ### histories -/

/-- A history of conversions in place of the file `x`. Modelling device. -/
def conversions (E : Env) (fuel : Nat) (x : Arg) (cs : List Conversion) (d : Disk) : Disk :=
  cs.foldl (fun d c => ((store E fuel x c.pieces c.output c.stop d).map Prod.snd).getD d) d

/-- **C105.** After any number of conversions in place of a file, whatever they wrote and wherever they were interrupted: the text the file had at first is in the file or in a backup that
was not there at first; and every other file that was there is unchanged, so also every backup of before. Partial as `in_place_partial`. -/
theorem original_survives_partial (hE : Faithful E) (fuel : Nat) (x : Arg) : ∀ (cs : List Conversion) (d : Disk) (t : Text), (∀ c ∈ cs, InPlace x c.output) → d (E.leads x.text) = .file t →
    (∃ t', conversions E fuel x cs d (E.leads x.text) = .file t') ∧
    (conversions E fuel x cs d (E.leads x.text) = .file t ∨ ∃ k, conversions E fuel x cs d (E.leads (cand x.text k)) = .file t ∧ d (E.leads (cand x.text k)) = .absent) ∧
      ∀ q, q ≠ E.leads x.text → d q ≠ .absent → conversions E fuel x cs d q = d q
  | [], d, t, _, ht => ⟨⟨t, ht⟩, Or.inl ht, fun _ _ _ => rfl⟩
  | c :: cs, d, t, hc, ht => by
    obtain ⟨d1, hd1⟩ : ∃ d1, d1 = ((store E fuel x c.pieces c.output c.stop d).map Prod.snd).getD d := ⟨_, rfl⟩
    have hrun : conversions E fuel x (c :: cs) d = conversions E fuel x cs d1 := by
      rw [hd1]; rfl
    rw [hrun]
    have hcs : ∀ c ∈ cs, InPlace x c.output := fun c h => hc c (List.mem_cons_of_mem _ h)
    cases hs : store E fuel x c.pieces c.output c.stop d with
    | none =>
      rw [hs] at hd1
      have : d1 = d := hd1
      rw [this]
      exact original_survives_partial hE fuel x cs d t hcs ht
    | some y =>
      obtain ⟨e, d2⟩ := y
      rw [hs] at hd1
      have h12 : d1 = d2 := hd1
      rw [h12]
      obtain ⟨b, ⟨k, hb, hfree, -⟩, K⟩ := in_place_partial hE (hc c List.mem_cons_self) fuel c.pieces c.stop ht hs
      have hkeep : ∀ q, q ≠ E.leads x.text → d q ≠ .absent → d2 q = d q := fun q q1 q2 => K.others q q1 (by rintro rfl; exact q2 K.free)
      have hfile : ∃ t2, d2 (E.leads x.text) = .file t2 := by
        cases e with
        | done => exact ⟨_, (K.done rfl).1⟩
        | raised z => exact ⟨t, by rw [K.raised z rfl]; exact ht⟩
        | interrupted =>
          rcases K.part rfl with q | ⟨a, _, q, _⟩
          · exact ⟨t, q⟩
          · exact ⟨a, q⟩
      obtain ⟨t2, ht2⟩ := hfile
      obtain ⟨i1, i2, i3⟩ := original_survives_partial hE fuel x cs d2 t2 hcs ht2
      have hpb : E.leads b ≠ E.leads x.text := by
        intro q
        rw [q, ht] at hfree
        exact (nomatch hfree)
      refine ⟨i1, ?_, fun q q1 q2 => ?_⟩
      · by_cases hsame : d2 (E.leads x.text) = .file t
        · rw [hsame] at ht2
          obtain rfl : t = t2 := by injection ht2
          rcases i2 with i2 | ⟨j, j1, j2⟩
          · exact Or.inl i2
          · refine Or.inr ⟨j, j1, ?_⟩
            by_cases hja : d (E.leads (cand x.text j)) = .absent
            · exact hja
            · have hjx : E.leads (cand x.text j) ≠ E.leads x.text := by
                intro q
                rw [q, hsame] at j2
                exact (nomatch j2)
              rw [hkeep _ hjx hja] at j2
              exact j2
        · have hbt := K.order hsame
          refine Or.inr ⟨k, ?_, by rw [← hb]; exact hfree⟩
          rw [← hb, i3 _ hpb (by rw [hbt]; simp), hbt]
      · have := hkeep q q1 q2
        rw [i3 q q1 (by rw [this]; exact q2), this]

/-! ### the tool -/

/-- **C105.** The tool, without output: if the file cannot be read, parsed or converted it raises and changes nothing; otherwise the original is kept as in `in_place_partial`, and if it ends normally the file has
the converted document. -/
theorem tool_in_place (hE : Faithful E) (fuel : Nat) (answers : Nat → Bool) (limit : Nat) (x : Text) (n : Option Nat) {e : End} {d' : Disk}
    (h : tool E fuel answers limit x none n d = some (e, d')) :
    ((∃ z, e = .raised z) ∧ d' = d) ∨
    ∃ t doc doc' asked b, d (E.leads x) = .file t ∧ E.parse t = some doc ∧ convert answers limit doc = .ok (doc', asked) ∧ FirstFree E d x b ∧
      Kept (E.leads x) (E.leads b) t (E.dump doc').flatten e d d' := by
  unfold tool at h
  cases hn : d (E.leads x) with
  | absent => rw [hn] at h; obtain ⟨rfl, rfl⟩ := Prod.mk.inj (Option.some.inj h); exact Or.inl ⟨⟨_, rfl⟩, rfl⟩
  | dir => rw [hn] at h; obtain ⟨rfl, rfl⟩ := Prod.mk.inj (Option.some.inj h); exact Or.inl ⟨⟨_, rfl⟩, rfl⟩
  | file t =>
    rw [hn] at h
    dsimp only at h
    cases hp : E.parse t with
    | none => rw [hp] at h; obtain ⟨rfl, rfl⟩ := Prod.mk.inj (Option.some.inj h); exact Or.inl ⟨⟨_, rfl⟩, rfl⟩
    | some doc =>
      rw [hp] at h
      dsimp only at h
      cases hv : convert answers limit doc with
      | error f => rw [hv] at h; obtain ⟨rfl, rfl⟩ := Prod.mk.inj (Option.some.inj h); exact Or.inl ⟨⟨_, rfl⟩, rfl⟩
      | ok y =>
        obtain ⟨doc', asked⟩ := y
        rw [hv] at h
        obtain ⟨b, hb, K⟩ := in_place_partial hE (x := .path x) (Or.inl rfl) fuel _ n hn h
        exact Or.inr ⟨t, doc, doc', asked, b, rfl, hp, hv, hb, K⟩

/-- The file was removed, or replaced by a directory, since it was read: nothing is written. -/
theorem vanished (E : Env) (pieces : List Text) (x orig : Text) (n : Option Nat) (d : Disk) :
    (d (E.leads x) = .absent → copyThen E pieces x orig n d = (.raised .fileNotFoundError, d)) ∧ (d (E.leads x) = .dir → copyThen E pieces x orig n d = (.raised .isADirectoryError, d)) := by
  constructor <;> intro h <;> unfold copyThen <;> rw [h]

/-- Interruptions are counted over both parts of the call: after `n` operations the disk is what the first `n` operations of copying and writing together make of it. -/
theorem interrupted_exact (E : Env) (pieces : List Text) (x orig : Text) (n : Nat) (d : Disk) (t : Text) (copying write : List FileOp) (h : d (E.leads x) = .file t)
    (hc : writing E d (E.leads orig) (E.pieces t) = .ok copying) (hw : writing E (copying.foldl FileOp.run d) (E.leads x) pieces = .ok write) :
    (copyThen E pieces x orig (some n) d).2 = ((copying ++ write).take n).foldl FileOp.run d := by
  unfold copyThen
  rw [h]
  dsimp only
  rw [hc]
  dsimp only [execute]
  by_cases hn : copying.length ≤ n
  · rw [decide_eq_true hn, List.take_of_length_le hn]
    dsimp only [writeDoc]
    rw [hw]
    dsimp only [later, Option.map, execute]
    rw [List.take_append, List.foldl_append, List.take_of_length_le hn]
    by_cases hk : write.length ≤ n - copying.length
    · rw [decide_eq_true hk]
    · rw [decide_eq_false hk]
  · rw [decide_eq_false hn, List.take_append_of_le_length (by omega)]

end Osp.Backup
