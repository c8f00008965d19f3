import Verif.Frames.Lemmas
/-!
# The interleaved server follows the sequential one
-/
namespace Osp.Frames
open Osp.Wire

theorem put_same {β : Type} (f : Conn → β) (c : Conn) (v : β) : put f c v c = v := by simp [put]
theorem put_other {β : Type} (f : Conn → β) {c d : Conn} (v : β) (h : d ≠ c) : put f c v d = f d := by simp [put, h]

/-- What is still to be sent of the answer. Proof device; nothing in /repo. -/
def pending {S : Type} (b : Backend S) (s : S) : Pos → List Bytes
  | .sending parts files => parts ++ (encodeFiles (files.map (onDisk b s))).frames
  | .reading p off files => readBlocks BLOCK_SIZE (((b.read s p).getD []).drop off) ++ (encodeFiles (files.map (onDisk b s))).frames
  | _ => []

/-- One connection: what was received so far, compared with the sequential server. Proof device; nothing in /repo. -/
def Inv1 {H : Type} (sha : Bytes → H) (pos : Option Pos) (hs : Table H) (stream : List Bytes) (tab : Table H) (rest : List Bytes) : Prop :=
  match pos with
  | none => tab = (fun _ => none) ∧ rest = stream
  | some (.rx r) => cont sha hs r stream = serverDecode sha ⟨fun _ => none, tab⟩ rest ∧ (r = .header → tab = hs ∧ rest = stream)
  | some (.sending _ _) => tab = hs ∧ rest = stream
  | some (.reading _ _ _) => tab = hs ∧ rest = stream
  | some .done => True

/-- One connection: what was sent so far, compared with the sequential server. Proof device; nothing in /repo. -/
def Out1 {S : Type} (b : Backend S) (s : S) (pos : Option Pos) (out sent : List Bytes) : Prop :=
  match pos with
  | none => sent = out
  | some .done => out <+: sent
  | some p => sent = out ++ pending b s p

variable {S H : Type} {b : Backend S} {sha : Bytes → H}

/-- Proof device; nothing in /repo. -/
def Stable (b : Backend S) (c : Conn) (s s' : S) (pos : Conn → Option Pos) : Prop :=
  ∀ d p, d ≠ c → pos d = some p → ∀ f ∈ p.unread, b.read s' f = b.read s f

/-- Proof device; nothing in /repo. -/
structure Good (b : Backend S) (sha : Bytes → H) (U : Prop) (w : World S H) (q : Seq S H) (fut : Conn → List Bytes) : Prop where
  srv : q.srv = w.srv
  inv : ∀ d, Inv1 sha (w.pos d) (w.hashes d) (w.inbox d ++ fut d) (q.tab d) (q.rest d)
  out : U → ∀ d, Out1 b w.srv (w.pos d) (w.out d) (q.sent d)

/-- In the middle of a step of `c` that began with the shared state `s0`. Proof device; nothing in /repo. -/
structure Part (b : Backend S) (sha : Bytes → H) (c : Conn) (U : Prop) (s0 : S) (w : World S H) (q : Seq S H) (fut : Conn → List Bytes) : Prop where
  srv : q.srv = w.srv
  inv : ∀ d, d ≠ c → Inv1 sha (w.pos d) (w.hashes d) (w.inbox d ++ fut d) (q.tab d) (q.rest d)
  out : U → ∀ d, d ≠ c → Out1 b s0 (w.pos d) (w.out d) (q.sent d)
  own : U → w.out c <+: q.sent c

theorem onDisk_congr {s s' : S} {files : List String} (h : ∀ f ∈ files, b.read s' f = b.read s f) :
    files.map (onDisk b s') = files.map (onDisk b s) :=
  List.map_congr_left (fun f hf => by simp only [onDisk, h f hf])

theorem pending_congr {s s' : S} {p : Pos} (h : ∀ f ∈ p.unread, b.read s' f = b.read s f) : pending b s' p = pending b s p := by
  cases p with
  | rx r => rfl
  | done => rfl
  | sending parts files => simp only [pending]; rw [onDisk_congr (files := files) h]
  | reading p off files =>
    simp only [pending]
    rw [onDisk_congr (s := s) (fun f hf => h f (List.mem_cons_of_mem _ hf)), h p List.mem_cons_self]

theorem Out1.move {s s' : S} {pos : Option Pos} {out sent : List Bytes} (h : Out1 b s pos out sent)
    (hs : ∀ p, pos = some p → ∀ f ∈ p.unread, b.read s' f = b.read s f) : Out1 b s' pos out sent := by
  cases pos with
  | none => exact h
  | some p =>
    have := pending_congr (hs p rfl)
    cases p with
    | done => exact h
    | rx r => exact h
    | sending parts files => simp only [Out1] at h ⊢; rw [this]; exact h
    | reading p off files => simp only [Out1] at h ⊢; rw [this]; exact h

theorem Good.part {c : Conn} {U : Prop} {w : World S H} {q : Seq S H} {fut : Conn → List Bytes} (h : Good b sha U w q fut) : Part b sha c U w.srv w q fut :=
  ⟨h.srv, fun d _ => h.inv d, fun u d _ => h.out u d, fun u => by
    have := h.out u c
    unfold Out1 at this
    split at this
    · rw [this]; exact List.prefix_refl _
    · exact this
    · exact ⟨_, this.symm⟩⟩

variable [DecidableEq H]

/-- What a step has to do: the new part of the log is what the sequential server does. Proof device; nothing in /repo. -/
def Next (b : Backend S) (sha : Bytes → H) (V : Prop) (log : List Act) (q : Seq S H) (fut : Conn → List Bytes) (w : World S H) : Prop :=
  ∃ as q', w.log = log ++ as ∧ seqRun b sha q as = some q' ∧ Good b sha V w q' fut

theorem finish_next {c : Conn} {U : Prop} {s0 : S} {w : World S H} {q : Seq S H} {fut : Conn → List Bytes} (h : Part b sha c U s0 w q fut) :
    Next b sha (U ∧ Stable b c s0 (finish b c w).srv w.pos) w.log q fut (finish b c w) := by
  refine ⟨[.leave c], { q with srv := b.leave q.srv c }, rfl, rfl, ⟨by simp only [finish, h.srv], ?_, ?_⟩⟩
  · intro d
    by_cases hd : d = c
    · subst hd; simp only [finish, put_same]; trivial
    · simp only [finish, put_other _ _ hd]; exact h.inv d hd
  · intro u d
    by_cases hd : d = c
    · subst hd; simp only [finish, put_same]; exact h.own u.1
    · have : Out1 b (finish b c w).srv (w.pos d) (w.out d) (q.sent d) :=
        (h.out u.1 d hd).move (fun p hp => u.2 d p hd hp)
      simpa only [finish, put_other _ _ hd] using this

theorem set_next {c : Conn} {U : Prop} {s0 : S} {w : World S H} {q : Seq S H} {fut : Conn → List Bytes} (p : Pos) (out : List Bytes)
    (h : Part b sha c U s0 w q fut)
    (hi : Inv1 sha (some p) (w.hashes c) (w.inbox c ++ fut c) (q.tab c) (q.rest c))
    (ho : U → Out1 b w.srv (some p) out (q.sent c)) :
    Next b sha (U ∧ Stable b c s0 w.srv w.pos) w.log q fut
      { w with out := put w.out c out, pos := put w.pos c (some p) } := by
  refine ⟨[], q, by simp, rfl, ⟨h.srv, ?_, ?_⟩⟩
  · intro d
    by_cases hd : d = c
    · subst hd; simp only [put_same]; exact hi
    · simp only [put_other _ _ hd]; exact h.inv d hd
  · intro u d
    by_cases hd : d = c
    · subst hd; simp only [put_same]; exact ho u.1
    · simp only [put_other _ _ hd]
      exact (h.out u.1 d hd).move (fun p hp => u.2 d p hd hp)

theorem send_next {c : Conn} {U : Prop} {s0 : S} {w : World S H} {q : Seq S H} {fut : Conn → List Bytes} (x : Bytes) (p : Pos)
    (h : Part b sha c U s0 w q fut)
    (hi : Inv1 sha (some p) (w.hashes c) (w.inbox c ++ fut c) (q.tab c) (q.rest c))
    (ho : U → Out1 b w.srv (some p) (w.out c ++ [x]) (q.sent c)) :
    Next b sha (U ∧ Stable b c s0 (send b c x p w).srv w.pos) w.log q fut (send b c x p w) := by
  unfold send
  cases hc : w.closed c with
  | true => simp only [↓reduceIte]; exact finish_next h
  | false =>
    simp only [Bool.false_eq_true, ↓reduceIte]
    exact set_next p _ h hi ho

theorem nextOut_next {c : Conn} {U : Prop} {s0 : S} {w : World S H} {q : Seq S H} {fut : Conn → List Bytes} (files : List String)
    (h : Part b sha c U s0 w q fut) (hi : q.tab c = w.hashes c ∧ q.rest c = w.inbox c ++ fut c)
    (ho : U → q.sent c = w.out c ++ (encodeFiles (files.map (onDisk b w.srv))).frames) :
    Next b sha (U ∧ Stable b c s0 (nextOut b c w files).srv w.pos) w.log q fut (nextOut b c w files) := by
  cases files with
  | nil =>
    have hw : nextOut b c w [] = { w with out := put w.out c (w.out c), pos := put w.pos c (some (.rx .header)) } := by
      have : put w.out c (w.out c) = w.out := by funext d; unfold put; split <;> simp_all
      rw [this]; rfl
    rw [hw]
    refine set_next _ _ h ⟨?_, fun _ => hi⟩ ?_
    · simp only [cont]; rw [hi.1, hi.2]
    · intro u; simpa [Out1, pending, encodeFiles] using ho u
  | cons p ps =>
    cases hr : b.read w.srv p with
    | none =>
      have hn : nextOut b c w (p :: ps) = finish b c w := by simp only [nextOut, hr]
      rw [hn]; exact finish_next h
    | some content =>
      cases he : encodeHeader [.int (ceilDiv content.length BLOCK_SIZE), .str (basename p)] LEN_FILES_HEADER with
      | error e =>
        have hn : nextOut b c w (p :: ps) = finish b c w := by simp only [nextOut, hr, he]
        rw [hn]; exact finish_next h
      | ok hd =>
        have hn : nextOut b c w (p :: ps) = send b c hd (.reading p 0 ps) w := by simp only [nextOut, hr, he]
        rw [hn]
        refine send_next _ _ h hi ?_
        intro u
        have := ho u
        simp only [Out1, pending, hr, Option.getD_some, List.drop_zero]
        rw [this]
        simp only [List.map_cons, encodeFiles, onDisk, hr, Option.map_some, encodeFile, he, Sent.andThen, List.cons_append, List.append_assoc,
          List.nil_append]

theorem filter_onDisk (s : S) (paths : List String) (hs : Table H) :
    ∀ f ∈ (filterFiles sha (paths.map (onDisk b s)) hs).1, onDisk b s f.path = some f := by
  induction paths generalizing hs with
  | nil => intro f hf; simp [filterFiles] at hf
  | cons p ps ih =>
    intro f hf
    cases hp : b.read s p with
    | none =>
      have : onDisk b s p = none := by simp [onDisk, hp]
      simp only [List.map_cons, this, filterFiles] at hf
      exact ih _ f hf
    | some content =>
      have : onDisk b s p = some ⟨p, content⟩ := by simp [onDisk, hp]
      simp only [List.map_cons, this, filterFiles] at hf
      split at hf
      · exact ih _ f hf
      · rcases List.mem_cons.1 hf with rfl | hf
        · exact this
        · exact ih _ f hf

theorem filter_paths (s : S) (paths : List String) (hs : Table H) :
    ((filterFiles sha (paths.map (onDisk b s)) hs).1.map File.path).map (onDisk b s) = (filterFiles sha (paths.map (onDisk b s)) hs).1.map some := by
  rw [List.map_map]
  exact List.map_congr_left (fun f hf => filter_onDisk s paths hs f hf)

theorem seqRun_one (q : Seq S H) (a : Act) (q' : Seq S H) (h : seqStep b sha q a = some q') (as : List Act) :
    seqRun b sha q (a :: as) = seqRun b sha q' as := by
  simp only [seqRun, List.foldlM_cons, h, Option.bind_eq_bind, Option.bind_some]

theorem Next.cons {V : Prop} {log : List Act} {q q' : Seq S H} {fut : Conn → List Bytes} {w : World S H} (a : Act)
    (ha : seqStep b sha q a = some q') (h : Next b sha V (log ++ [a]) q' fut w) : Next b sha V log q fut w := by
  obtain ⟨as, q'', h1, h2, h3⟩ := h
  exact ⟨a :: as, q'', by rw [h1]; simp, by rw [seqRun_one q a q' ha, h2], h3⟩

omit [DecidableEq H] in
theorem nextFile_not_header {command data : String} {n : Nat} {st : RecvState H} {hs : Table H} {r : Rx} (h : nextFile command data n st = .wait hs r) : r ≠ .header := by
  cases n with
  | zero => cases h
  | succ n => cases h; exact (nomatch ·)

omit [DecidableEq H] in
theorem gotMessage_not_header {command : String} {acc : Bytes} {n : Nat} {hs hs' : Table H} {r : Rx} (h : gotMessage command acc n hs = .wait hs' r) : r ≠ .header := by
  unfold gotMessage at h
  split at h
  · exact nextFile_not_header h
  · cases h

omit [DecidableEq H] in
theorem feed_not_header {hs hs' : Table H} {r r' : Rx} {f : Bytes} (h : feed sha hs r f = .wait hs' r') : r' ≠ .header := by
  unfold feed at h
  split at h
  · split at h
    · cases h
    · split at h
      · cases h
      · split at h
        · exact gotMessage_not_header h
        · cases h; exact (nomatch ·)
    · cases h
  · exact gotMessage_not_header h
  · cases h; exact (nomatch ·)
  · split at h
    · cases h
    · simp only at h
      split at h
      · split at h
        · exact nextFile_not_header h
        · cases h; exact (nomatch ·)
      · cases h
    · cases h
  · exact nextFile_not_header h
  · cases h; exact (nomatch ·)

theorem answer_next {c : Conn} {U : Prop} {w : World S H} {q : Seq S H} {fut : Conn → List Bytes} (r : Request H)
    (h : Part b sha c U w.srv w q fut) (hsent : U → q.sent c = w.out c)
    (hd : serverDecode sha ⟨fun _ => none, q.tab c⟩ (q.rest c) = .ok (r, w.inbox c ++ fut c)) :
    Next b sha (U ∧ Stable b c w.srv (answer b sha c r w).srv w.pos) w.log q fut (answer b sha c r w) := by
  obtain ⟨s', resp, paths, hx⟩ : ∃ s' resp paths, b.handle w.srv c r.command r.data r.st.dir = (s', resp, paths) := ⟨_, _, _, rfl⟩
  have hans : answer b sha c r w = match encodeHeader [.int VERSION, .int (splitMessage resp).1, .int (filterFiles sha (paths.map (onDisk b s')) r.st.hashes).1.length] LEN_HEADER with
      | .error _ => finish b c { w with srv := s', hashes := put w.hashes c (filterFiles sha (paths.map (onDisk b s')) r.st.hashes).2, log := w.log ++ [.serve c] }
      | .ok h => send b c h (.sending (splitMessage resp).2 ((filterFiles sha (paths.map (onDisk b s')) r.st.hashes).1.map File.path)) { w with srv := s', hashes := put w.hashes c (filterFiles sha (paths.map (onDisk b s')) r.st.hashes).2, log := w.log ++ [.serve c] } := by
    simp only [answer, hx]
    generalize encodeHeader _ _ = z
    cases z <;> rfl
  have hresp : ∀ hdr, encodeHeader [.int VERSION, .int (splitMessage resp).1, .int (filterFiles sha (paths.map (onDisk b s')) r.st.hashes).1.length] LEN_HEADER = .ok hdr →
      (serverRespond sha r.st.hashes resp (paths.map (onDisk b s'))).1.frames =
        hdr :: (splitMessage resp).2 ++ (encodeFiles ((filterFiles sha (paths.map (onDisk b s')) r.st.hashes).1.map some)).frames := by
    intro hdr he
    unfold serverRespond
    simp only [he, Sent.andThen]
  have htab : (serverRespond sha r.st.hashes resp (paths.map (onDisk b s'))).2 = (filterFiles sha (paths.map (onDisk b s')) r.st.hashes).2 := by
    unfold serverRespond
    simp only
    split <;> rfl
  obtain ⟨q', hq'⟩ : ∃ q' : Seq S H, q' = ⟨s', put q.tab c (serverRespond sha r.st.hashes resp (paths.map (onDisk b s'))).2,
      put q.rest c (w.inbox c ++ fut c), put q.sent c (q.sent c ++ (serverRespond sha r.st.hashes resp (paths.map (onDisk b s'))).1.frames),
      q.hist ++ [⟨c, r.command, r.data, r.st.dir, resp⟩]⟩ := ⟨_, rfl⟩
  have hstep : seqStep b sha q (.serve c) = some q' := by
    simp only [seqStep, hd, h.srv, hx, hq']
    rfl
  have hpart : Part b sha c U w.srv { w with srv := s', hashes := put w.hashes c (filterFiles sha (paths.map (onDisk b s')) r.st.hashes).2, log := w.log ++ [.serve c] } q' fut := by
    refine ⟨by rw [hq'], ?_, ?_, ?_⟩
    · intro d hdc
      rw [hq']
      simp only [put_other _ _ hdc]
      exact h.inv d hdc
    · intro u d hdc
      rw [hq']
      simp only [put_other _ _ hdc]
      exact h.out u d hdc
    · intro u
      rw [hq']
      simp only [put_same]
      exact (h.own u).trans (List.prefix_append _ _)
  refine Next.cons (.serve c) hstep ?_
  cases he : encodeHeader [.int VERSION, .int (splitMessage resp).1, .int (filterFiles sha (paths.map (onDisk b s')) r.st.hashes).1.length] LEN_HEADER with
  | error e => rw [he] at hans; rw [hans]; exact finish_next hpart
  | ok hdr =>
    rw [he] at hans
    rw [hans]
    refine send_next _ _ hpart ?_ ?_
    · rw [hq']
      simp only [Inv1, put_same]
      exact ⟨htab, trivial⟩
    · intro u
      rw [hq']
      simp only [Out1, pending, put_same]
      rw [hresp hdr he, filter_paths, hsent u]
      simp

theorem resume_next {c : Conn} {U : Prop} {w : World S H} {q : Seq S H} {fut : Conn → List Bytes} (h : Good b sha U w q fut) :
    Next b sha (U ∧ Stable b c w.srv (resume b sha c w).srv w.pos) w.log q fut (resume b sha c w) := by
  have hnop : ∀ w', w' = w → Next b sha (U ∧ Stable b c w.srv w'.srv w.pos) w.log q fut w' := by
    rintro w' rfl; exact ⟨[], q, by simp, rfl, ⟨h.srv, h.inv, fun u => h.out u.1⟩⟩
  have hp : Part b sha c U w.srv w q fut := h.part
  cases hpos : w.pos c with
  | none => exact hnop _ (by simp only [resume, hpos])
  | some p =>
    have hinv := h.inv c
    have hout := fun u => h.out u c
    rw [hpos] at hinv hout
    cases p with
    | done => exact hnop _ (by simp only [resume, hpos])
    | sending parts files =>
      cases parts with
      | nil =>
        have hr : resume b sha c w = nextOut b c w files := by simp only [resume, hpos]
        rw [hr]
        refine nextOut_next files hp hinv ?_
        intro u; simpa [Out1, pending] using hout u
      | cons x xs =>
        have hr : resume b sha c w = send b c x (.sending xs files) w := by simp only [resume, hpos]
        rw [hr]
        refine send_next _ _ hp hinv ?_
        intro u; simpa [Out1, pending] using hout u
    | reading p off files =>
      cases hb : (((b.read w.srv p).getD []).drop off).take BLOCK_SIZE with
      | nil =>
        have hr : resume b sha c w = nextOut b c w files := by simp only [resume, hpos, hb]
        rw [hr]
        refine nextOut_next files hp hinv ?_
        intro u
        have := hout u
        simp only [Out1, pending] at this
        rw [this, readBlocks]
        split
        · rfl
        · rename_i h2; rw [hb] at h2; cases h2
      | cons x xs =>
        have hr : resume b sha c w = send b c (x :: xs) (.reading p (off + BLOCK_SIZE) files) w := by simp only [resume, hpos, hb]
        rw [hr]
        refine send_next _ _ hp hinv ?_
        intro u
        have := hout u
        simp only [Out1, pending] at this ⊢
        rw [this, readBlocks]
        split
        · rename_i h2; rw [hb] at h2; cases h2
        · rename_i y ys h2
          rw [hb] at h2
          cases h2
          rw [List.drop_drop]
          simp
    | rx r =>
      cases hin : w.inbox c with
      | nil =>
        cases hcl : w.closed c with
        | true =>
          have hr : resume b sha c w = finish b c w := by simp only [resume, hpos, hin, hcl, ↓reduceIte]
          rw [hr]; exact finish_next hp
        | false => exact hnop _ (by simp only [resume, hpos, hin, hcl]; rfl)
      | cons f fs =>
        have hput : ∀ d, d ≠ c → (put w.inbox c fs) d = w.inbox d := fun d hd => put_other _ _ hd
        have hp' : Part b sha c U w.srv { w with inbox := put w.inbox c fs } q fut :=
          ⟨h.srv, fun d hd => by simp only [hput d hd]; exact h.inv d, fun u d _ => h.out u d, hp.own⟩
        have hc := hinv.1
        rw [hin, List.cons_append, feed_cont] at hc
        have hs : U → q.sent c = w.out c := fun u => by simpa [Out1, pending] using hout u
        cases hf : feed sha (w.hashes c) r f with
        | fail e =>
          have hr : resume b sha c w = finish b c { w with inbox := put w.inbox c fs } := by simp only [resume, hpos, hin, hf]
          rw [hr]; exact finish_next hp'
        | ready req =>
          have hr : resume b sha c w = answer b sha c req { w with inbox := put w.inbox c fs } := by simp only [resume, hpos, hin, hf]
          rw [hr]
          refine answer_next req hp' hs ?_
          rw [hf] at hc
          simp only [put_same]
          exact hc.symm
        | wait hs' r' =>
          have hr : resume b sha c w = { w with inbox := put w.inbox c fs, hashes := put w.hashes c hs', pos := put w.pos c (some (.rx r')), out := put w.out c (w.out c) } := by
            have : put w.out c (w.out c) = w.out := by funext d; unfold put; split <;> simp_all
            simp only [resume, hpos, hin, hf, this]
          have hp'' : Part b sha c U w.srv { w with inbox := put w.inbox c fs, hashes := put w.hashes c hs' } q fut :=
            ⟨h.srv, fun d hd => by simp only [hput d hd, put_other _ _ hd]; exact h.inv d, fun u d _ => h.out u d, hp.own⟩
          rw [hr]
          rw [hf] at hc
          refine set_next (.rx r') (w.out c) hp'' ⟨?_, ?_⟩ (fun u => by simpa [Out1, pending] using hs u)
          · simp only [put_same]; exact hc
          · intro hr'; exact absurd hr' (feed_not_header hf)

theorem connect_next {c : Conn} {U : Prop} {w : World S H} {q : Seq S H} {fut : Conn → List Bytes} (h : Good b sha U w q fut) :
    Good b sha U (step b sha w (.connect c)) q fut := by
  cases hpos : w.pos c with
  | some p =>
    have hst : step b sha w (.connect c) = w := by simp only [step, hpos]
    rw [hst]; exact h
  | none =>
    have hst : step b sha w (.connect c) = { w with pos := put w.pos c (some (.rx .header)), hashes := put w.hashes c (fun _ => none) } := by
      simp only [step, hpos]
    rw [hst]
    refine ⟨h.srv, ?_, ?_⟩
    · intro d
      by_cases hd : d = c
      · subst hd
        simp only [put_same]
        have := h.inv d
        rw [hpos] at this
        obtain ⟨h1, h2⟩ := this
        refine ⟨?_, fun _ => ⟨h1, h2⟩⟩
        simp only [cont]; rw [h1, h2]
      · simp only [put_other _ _ hd]; exact h.inv d
    · intro u d
      by_cases hd : d = c
      · subst hd
        simp only [put_same]
        have := h.out u d
        rw [hpos] at this
        simpa [Out1, pending] using this
      · simp only [put_other _ _ hd]; exact h.out u d

theorem step_next {U : Prop} {w : World S H} {q : Seq S H} {fut : Conn → List Bytes} (e : Ev)
    (h : Good b sha U w q (fun c => arrivals c [e] ++ fut c)) :
    Next b sha (U ∧ Stable b e.conn w.srv (step b sha w e).srv w.pos) w.log q fut (step b sha w e) := by
  cases e with
  | connect c =>
    have h' : Good b sha U w q fut := h
    have h1 := connect_next (c := c) h'
    have hlog : (step b sha w (.connect c)).log = w.log := by simp only [step]; split <;> rfl
    exact ⟨[], q, by rw [hlog]; simp, rfl, ⟨h1.srv, h1.inv, fun u => h1.out u.1⟩⟩
  | close c => exact ⟨[], q, by simp [step], rfl, ⟨h.srv, h.inv, fun u => h.out u.1⟩⟩
  | resume c => exact resume_next h
  | arrive c f =>
    refine ⟨[], q, by simp [step], rfl, ⟨h.srv, ?_, fun u => h.out u.1⟩⟩
    intro d
    have := h.inv d
    by_cases hd : d = c
    · subst hd
      simp only [step, put_same, List.append_assoc, List.singleton_append]
      simpa [arrivals] using this
    · simp only [step, put_other _ _ hd]
      simpa [arrivals, Ne.symm hd] using this

theorem run_next {U : Prop} {w : World S H} {q : Seq S H} {fut : Conn → List Bytes} (es : List Ev)
    (h : Good b sha U w q (fun c => arrivals c es ++ fut c)) :
    Next b sha (U ∧ Undisturbed b sha w es) w.log q fut (run b sha w es) := by
  induction es generalizing U w q with
  | nil => exact ⟨[], q, by simp [run], rfl, ⟨h.srv, h.inv, fun u => h.out u.1⟩⟩
  | cons e es ih =>
    have h0 : Good b sha U w q (fun c => arrivals c [e] ++ (arrivals c es ++ fut c)) := by
      have : (fun c => arrivals c (e :: es) ++ fut c) = (fun c => arrivals c [e] ++ (arrivals c es ++ fut c)) := by
        funext c
        rw [← List.append_assoc]
        congr 1
        exact List.filterMap_append (l := [e]) (l' := es)
      rw [← this]; exact h
    obtain ⟨as, q1, h1, h2, h3⟩ := step_next e h0
    obtain ⟨as', q2, h4, h5, h6⟩ := ih h3
    refine ⟨as ++ as', q2, ?_, ?_, ⟨h6.srv, h6.inv, fun u => h6.out ⟨⟨u.1, u.2.1⟩, u.2.2⟩⟩⟩
    · show (run b sha (step b sha w e) es).log = _
      rw [h4, h1, List.append_assoc]
    · unfold seqRun at h2 h5 ⊢
      rw [List.foldlM_append, h2]
      exact h5

omit [DecidableEq H] in
theorem init_good (s : S) (fut : Conn → List Bytes) : Good b sha True (World.init s) (Seq.init s fut) fut :=
  ⟨rfl, fun _ => ⟨rfl, rfl⟩, fun _ _ => rfl⟩

end Osp.Frames
