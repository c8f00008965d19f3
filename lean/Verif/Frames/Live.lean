import Verif.Frames.Private
/-!
# A well-behaved client is answered, whatever the others do
-/
namespace Osp.Frames
open Osp.Wire

variable {S H : Type} [DecidableEq H] {b : Backend S} {sha : Bytes → H}

/-! ### A step of one connection leaves the others alone -/

/-- Proof device; nothing in /repo. -/
structure Same (c : Conn) (w w' : World S H) : Prop where
  pos : w'.pos c = w.pos c
  hashes : w'.hashes c = w.hashes c
  inbox : w'.inbox c = w.inbox c
  closed : w'.closed c = w.closed c
  out : w'.out c = w.out c

omit [DecidableEq H] in
theorem Same.refl (c : Conn) (w : World S H) : Same c w w := ⟨rfl, rfl, rfl, rfl, rfl⟩

omit [DecidableEq H] in
theorem finish_same {c d : Conn} (hd : c ≠ d) (w : World S H) : Same c w (finish b d w) :=
  ⟨put_other _ _ hd, put_other _ _ hd, rfl, rfl, rfl⟩

omit [DecidableEq H] in
theorem send_same {c d : Conn} (hd : c ≠ d) (x : Bytes) (p : Pos) (w : World S H) : Same c w (send b d x p w) := by
  unfold send
  split
  · exact finish_same hd w
  · exact ⟨put_other _ _ hd, rfl, rfl, rfl, put_other _ _ hd⟩

omit [DecidableEq H] in
theorem nextOut_same {c d : Conn} (hd : c ≠ d) (files : List String) (w : World S H) : Same c w (nextOut b d w files) := by
  cases files with
  | nil => exact ⟨put_other _ _ hd, rfl, rfl, rfl, rfl⟩
  | cons p ps =>
    simp only [nextOut]
    split
    · exact finish_same hd w
    · split
      · exact finish_same hd w
      · exact send_same hd _ _ w

omit [DecidableEq H] in
theorem Same.trans {c : Conn} {w w' w'' : World S H} (h : Same c w w') (h' : Same c w' w'') : Same c w w'' :=
  ⟨h'.pos.trans h.pos, h'.hashes.trans h.hashes, h'.inbox.trans h.inbox, h'.closed.trans h.closed, h'.out.trans h.out⟩

theorem answer_same {c d : Conn} (hd : c ≠ d) (r : Request H) (w : World S H) : Same c w (answer b sha d r w) := by
  simp only [answer]
  split
  · refine Same.trans ?_ (finish_same hd _)
    exact ⟨rfl, put_other _ _ hd, rfl, rfl, rfl⟩
  · refine Same.trans ?_ (send_same hd _ _ _)
    exact ⟨rfl, put_other _ _ hd, rfl, rfl, rfl⟩

theorem resume_same {c d : Conn} (hd : c ≠ d) (w : World S H) : Same c w (resume b sha d w) := by
  unfold resume
  split
  · exact .refl c w
  · exact .refl c w
  · split
    · split
      · exact finish_same hd w
      · exact .refl c w
    · rename_i fs _
      have h0 : Same c w { w with inbox := put w.inbox d fs } := ⟨rfl, rfl, put_other _ _ hd, rfl, rfl⟩
      simp only
      split
      · exact ⟨put_other _ _ hd, put_other _ _ hd, put_other _ _ hd, rfl, rfl⟩
      · exact h0.trans (finish_same hd _)
      · exact h0.trans (answer_same hd _ _)
  · exact send_same hd _ _ w
  · exact nextOut_same hd _ w
  · split
    · exact nextOut_same hd _ w
    · exact send_same hd _ _ w

/-- **C100** (isolation): an event of one connection changes nothing of another: not what it waits for, what it has received, its table of hashes, nor what was sent
to it. -/
theorem step_same {c : Conn} (e : Ev) (he : c ≠ e.conn) (w : World S H) : Same c w (step b sha w e) := by
  cases e with
  | connect d =>
    simp only [step]
    split
    · exact ⟨put_other _ _ he, put_other _ _ he, rfl, rfl, rfl⟩
    · exact .refl c w
  | arrive d f => exact ⟨rfl, rfl, put_other _ _ he, rfl, rfl⟩
  | close d => exact ⟨rfl, rfl, rfl, put_other _ _ he, rfl⟩
  | resume d => exact resume_same he w

/-! ### A connection that only gets well-formed requests -/

/-- Proof device; nothing in /repo. -/
def Wf (stream : List Bytes) : Prop := ∃ rest : List ReqSpec, (∀ r ∈ rest, RequestOk r.1 r.2.1 r.2.2) ∧ stream = sentStream rest

/-- Proof device; nothing in /repo. -/
def FilesOk (b : Backend S) (s : S) (files : List String) : Prop := ∀ f ∈ files, ∃ x, b.read s f = some x ∧ Sendable ⟨f, x⟩

/-- Proof device; nothing in /repo. -/
def Alive1 (b : Backend S) (sha : Bytes → H) (s : S) (pos : Option Pos) (hs : Table H) (stream : List Bytes) : Prop :=
  match pos with
  | none => Wf stream
  | some (.rx r) => (r = .header ∧ Wf stream) ∨ ∃ req ws, cont sha hs r stream = .ok (req, ws) ∧ Wf ws
  | some (.sending _ files) => FilesOk b s files ∧ Wf stream
  | some (.reading _ _ files) => FilesOk b s files ∧ Wf stream
  | some .done => False

/-- Proof device; nothing in /repo. -/
def Alive (b : Backend S) (sha : Bytes → H) (c : Conn) (w : World S H) (fut : List Bytes) : Prop :=
  w.closed c = false ∧ Alive1 b sha w.srv (w.pos c) (w.hashes c) (w.inbox c ++ fut)

omit [DecidableEq H] in
theorem send_alive {c : Conn} {w : World S H} {fut : List Bytes} (x : Bytes) (p : Pos) (hc : w.closed c = false)
    (h : Alive1 b sha w.srv (some p) (w.hashes c) (w.inbox c ++ fut)) : Alive b sha c (send b c x p w) fut := by
  unfold send
  simp only [hc, Bool.false_eq_true, ↓reduceIte]
  refine ⟨hc, ?_⟩
  simp only [put_same]
  exact h

theorem file_header {p : String} {x : Bytes} (h : Sendable ⟨p, x⟩) :
    ∃ hd, encodeHeader [.int (ceilDiv x.length BLOCK_SIZE), .str (basename p)] LEN_FILES_HEADER = .ok hd := by
  cases he : encodeHeader [.int (ceilDiv x.length BLOCK_SIZE), .str (basename p)] LEN_FILES_HEADER with
  | ok hd => exact ⟨hd, rfl⟩
  | error e =>
    obtain ⟨hd, h1, _⟩ := encodeFile_ok h
    simp only [encodeFile, he] at h1
    cases h1

omit [DecidableEq H] in
theorem nextOut_alive {c : Conn} {w : World S H} {fut : List Bytes} (files : List String) (hc : w.closed c = false) (hf : FilesOk b w.srv files)
    (hw : Wf (w.inbox c ++ fut)) : Alive b sha c (nextOut b c w files) fut := by
  cases files with
  | nil => exact ⟨hc, by simp only [nextOut, put_same]; exact Or.inl ⟨rfl, hw⟩⟩
  | cons p ps =>
    obtain ⟨x, hx, hs⟩ := hf p List.mem_cons_self
    obtain ⟨hd, hh⟩ := file_header hs
    simp only [nextOut, hx, hh]
    exact send_alive _ _ hc ⟨fun f hf' => hf f (List.mem_cons_of_mem _ hf'), hw⟩

theorem answer_alive (hfit : Fits b) {c : Conn} {w : World S H} {fut : List Bytes} (r : Request H) (hc : w.closed c = false)
    (hw : Wf (w.inbox c ++ fut)) : Alive b sha c (answer b sha c r w) fut := by
  obtain ⟨f1, f2, f3⟩ := hfit w.srv c r.command r.data r.st.dir
  have hsub := filterFiles_sublist sha ((b.handle w.srv c r.command r.data r.st.dir).2.2.map (onDisk b (b.handle w.srv c r.command r.data r.st.dir).1)) r.st.hashes
  have hlen : (filterFiles sha ((b.handle w.srv c r.command r.data r.st.dir).2.2.map (onDisk b (b.handle w.srv c r.command r.data r.st.dir).1)) r.st.hashes).1.length < 256 ^ 2 := by
    have h1 := hsub.length_le
    have h2 : (existing ((b.handle w.srv c r.command r.data r.st.dir).2.2.map (onDisk b (b.handle w.srv c r.command r.data r.st.dir).1))).length ≤ _ :=
      List.length_filterMap_le _ _
    rw [List.length_map] at h2
    omega
  obtain ⟨hdr, h1, _⟩ := header_encodable [.int VERSION, .int (splitMessage (b.handle w.srv c r.command r.data r.st.dir).2.1).1, .int (filterFiles sha ((b.handle w.srv c r.command r.data r.st.dir).2.2.map (onDisk b (b.handle w.srv c r.command r.data r.st.dir).1)) r.st.hashes).1.length] LEN_HEADER
    ⟨_, .cons ⟨1, rfl, by decide⟩ (.cons ⟨_, rfl, f1⟩ (.cons ⟨_, rfl, hlen⟩ .nil)), Or.inl rfl⟩
  simp only [answer, h1]
  refine send_alive _ _ hc ⟨?_, hw⟩
  intro f hf
  obtain ⟨g, hg, rfl⟩ := List.mem_map.1 hf
  have hod := filter_onDisk _ _ _ g hg
  have := hsub.subset hg
  simp only [existing, List.mem_filterMap, List.mem_map, id] at this
  obtain ⟨o, ⟨p, hpm, rfl⟩, ho'⟩ := this
  simp only [onDisk] at ho' hod
  obtain ⟨x, hx, rfl⟩ := Option.map_eq_some_iff.1 ho'
  exact ⟨x, hx, f3 p hpm x hx⟩

omit [DecidableEq H] in
theorem alive_decodes {hs : Table H} {r : Rx} {f : Bytes} {stream : List Bytes}
    (h : (r = .header ∧ Wf (f :: stream)) ∨ ∃ req ws, cont sha hs r (f :: stream) = .ok (req, ws) ∧ Wf ws) :
    ∃ req ws, cont sha hs r (f :: stream) = .ok (req, ws) ∧ Wf ws := by
  rcases h with ⟨rfl, rest, hok, hst⟩ | h
  · cases rest with
    | nil => simp [sentStream] at hst
    | cons r0 rs =>
      obtain ⟨_, st', e1, _⟩ := request_roundtrip sha r0.1 r0.2.1 r0.2.2 (hok r0 (by simp)) ⟨fun _ => none, hs⟩ (sentStream rs)
      refine ⟨⟨r0.1, r0.2.1, st'⟩, sentStream rs, ?_, rs, fun r hr => hok r (List.mem_cons_of_mem _ hr), rfl⟩
      simp only [cont]
      rw [hst, sentStream_cons, e1]
  · exact h

theorem resume_alive (hfit : Fits b) {c : Conn} {w : World S H} {fut : List Bytes} (h : Alive b sha c w fut) : Alive b sha c (resume b sha c w) fut := by
  obtain ⟨hc, h⟩ := h
  cases hpos : w.pos c with
  | none =>
    have hr : resume b sha c w = w := by simp only [resume, hpos]
    rw [hr]; exact ⟨hc, h⟩
  | some p =>
    rw [hpos] at h
    cases p with
    | done => cases h
    | sending parts files =>
      cases parts with
      | nil =>
        have hr : resume b sha c w = nextOut b c w files := by simp only [resume, hpos]
        rw [hr]; exact nextOut_alive files hc h.1 h.2
      | cons x xs =>
        have hr : resume b sha c w = send b c x (.sending xs files) w := by simp only [resume, hpos]
        rw [hr]; exact send_alive _ _ hc h
    | reading p off files =>
      cases hb : (((b.read w.srv p).getD []).drop off).take BLOCK_SIZE with
      | nil =>
        have hr : resume b sha c w = nextOut b c w files := by simp only [resume, hpos, hb]
        rw [hr]; exact nextOut_alive files hc h.1 h.2
      | cons x xs =>
        have hr : resume b sha c w = send b c (x :: xs) (.reading p (off + BLOCK_SIZE) files) w := by simp only [resume, hpos, hb]
        rw [hr]; exact send_alive _ _ hc h
    | rx r =>
      cases hin : w.inbox c with
      | nil =>
        have hr : resume b sha c w = w := by simp only [resume, hpos, hin, hc, Bool.false_eq_true, ↓reduceIte]
        rw [hr]; exact ⟨hc, by rw [hpos]; exact h⟩
      | cons f fs =>
        simp only [Alive1, hin, List.cons_append] at h
        obtain ⟨req, ws, h1, h2⟩ := alive_decodes h
        rw [feed_cont] at h1
        cases hf : feed sha (w.hashes c) r f with
        | fail e => rw [hf] at h1; cases h1
        | ready req' =>
          have hr : resume b sha c w = answer b sha c req' { w with inbox := put w.inbox c fs } := by simp only [resume, hpos, hin, hf]
          rw [hr]
          rw [hf] at h1
          simp only [Fed.cont, Except.ok.injEq, Prod.mk.injEq] at h1
          refine answer_alive hfit req' hc ?_
          simp only [put_same]
          rw [h1.2]; exact h2
        | wait hs' r' =>
          have hr : resume b sha c w = { w with inbox := put w.inbox c fs, hashes := put w.hashes c hs', pos := put w.pos c (some (.rx r')) } := by
            simp only [resume, hpos, hin, hf]
          rw [hr]
          rw [hf] at h1
          refine ⟨hc, ?_⟩
          simp only [put_same]
          exact Or.inr ⟨req, ws, h1, h2⟩

omit [DecidableEq H] in
theorem Alive1.move {s s' : S} {pos : Option Pos} {hs : Table H} {stream : List Bytes} (h : Alive1 b sha s pos hs stream)
    (hu : ∀ p, pos = some p → ∀ f ∈ p.unread, b.read s' f = b.read s f) : Alive1 b sha s' pos hs stream := by
  cases pos with
  | none => exact h
  | some p =>
    have hu := hu p rfl
    cases p with
    | done => exact h
    | rx r => exact h
    | sending parts files => exact ⟨fun f hf => by rw [hu f hf]; exact h.1 f hf, h.2⟩
    | reading p off files => exact ⟨fun f hf => by rw [hu f (List.mem_cons_of_mem _ hf)]; exact h.1 f hf, h.2⟩

theorem step_alive (hfit : Fits b) {c : Conn} {w : World S H} {fut : List Bytes} (e : Ev) (hclose : e ≠ .close c)
    (hu : ∀ d p, d ≠ e.conn → w.pos d = some p → ∀ f ∈ p.unread, b.read (step b sha w e).srv f = b.read w.srv f)
    (h : Alive b sha c w (arrivals c [e] ++ fut)) : Alive b sha c (step b sha w e) fut := by
  by_cases hc : c = e.conn
  · cases e with
    | connect d =>
      have hc : c = d := hc
      subst hc
      have h' : Alive b sha c w fut := h
      obtain ⟨h1, h2⟩ := h'
      simp only [step]
      split
      · rename_i hpos
        rw [hpos] at h2
        exact ⟨h1, by simp only [put_same]; exact Or.inl ⟨rfl, h2⟩⟩
      · exact ⟨h1, h2⟩
    | arrive d f =>
      have hc : c = d := hc
      subst hc
      obtain ⟨h1, h2⟩ := h
      refine ⟨h1, ?_⟩
      simp only [step, put_same, List.append_assoc, List.singleton_append]
      simpa [arrivals] using h2
    | close d => have hc : c = d := hc; subst hc; exact absurd rfl hclose
    | resume d => have hc : c = d := hc; subst hc; exact resume_alive hfit h
  · have hs := step_same (b := b) (sha := sha) e hc w
    obtain ⟨h1, h2⟩ := h
    have harr : arrivals c [e] = [] := by
      cases e with
      | arrive d f => have : d ≠ c := fun h => hc h.symm; simp [arrivals, this]
      | connect d => rfl
      | close d => rfl
      | resume d => rfl
    rw [harr, List.nil_append] at h2
    refine ⟨by rw [hs.closed]; exact h1, ?_⟩
    rw [hs.pos, hs.hashes, hs.inbox]
    exact h2.move (fun p hp => hu c p hc hp)

theorem run_alive (hfit : Fits b) {c : Conn} (es : List Ev) : ∀ {w : World S H} {fut : List Bytes}, .close c ∉ es → Undisturbed b sha w es →
    Alive b sha c w (arrivals c es ++ fut) → Alive b sha c (run b sha w es) fut := by
  induction es with
  | nil => intro w fut _ _ h; exact h
  | cons e es ih =>
    intro w fut hc hu h
    have harr : arrivals c (e :: es) = arrivals c [e] ++ arrivals c es := List.filterMap_append (l := [e]) (l' := es)
    rw [harr, List.append_assoc] at h
    exact ih (fun hm => hc (List.mem_cons_of_mem _ hm)) hu.2 (step_alive hfit e (fun he => hc (by rw [he]; exact List.mem_cons_self)) hu.1 h)

/-- **C100** (no connection is dropped because of another): the coroutine of a client that sends well-formed requests, or a part of them so far, and has not closed its
connection has not ended, whatever arrives on the other connections. -/
theorem never_dropped (b : Backend S) (sha : Bytes → H) (hfit : Fits b) (s : S) (es : List Ev) (hu : Undisturbed b sha (World.init s) es) (c : Conn)
    (hclose : .close c ∉ es) (reqs : List ReqSpec) (hok : ∀ r ∈ reqs, RequestOk r.1 r.2.1 r.2.2) (fut : List Bytes)
    (harr : arrivals c es ++ fut = sentStream reqs) : (run b sha (World.init s : World S H) es).pos c ≠ some .done := by
  intro hd
  have := run_alive (sha := sha) hfit (w := World.init s) (fut := fut) es hclose hu ⟨rfl, ⟨reqs, hok, by simpa [World.init] using harr⟩⟩
  obtain ⟨_, h2⟩ := this
  rw [hd] at h2
  exact h2

/-! ### Progress -/

/-- Proof device; nothing in /repo. -/
def Reach (b : Backend S) (sha : Bytes → H) (c : Conn) (w w' : World S H) : Prop := ∃ n, w' = run b sha w (List.replicate n (.resume c))

theorem Reach.refl (c : Conn) (w : World S H) : Reach b sha c w w := ⟨0, rfl⟩

theorem Reach.step {c : Conn} {w w' : World S H} (h : Reach b sha c (resume b sha c w) w') : Reach b sha c w w' := by
  obtain ⟨n, rfl⟩ := h
  exact ⟨n + 1, by simp [List.replicate_succ, run, Frames.step]⟩

theorem Reach.trans {c : Conn} {w w' w'' : World S H} (h : Reach b sha c w w') (h' : Reach b sha c w' w'') : Reach b sha c w w'' := by
  obtain ⟨n, rfl⟩ := h
  obtain ⟨m, rfl⟩ := h'
  exact ⟨n + m, by simp only [run, List.replicate_add, List.foldl_append]⟩

/-- The answer is finished. Proof device; nothing in /repo. -/
def Flushed (b : Backend S) (sha : Bytes → H) (c : Conn) (w : World S H) : Prop :=
  ∃ w', Reach b sha c w w' ∧ w'.pos c = some (.rx .header) ∧ w'.inbox c = w.inbox c

theorem Flushed.after {c : Conn} {w : World S H} (h : Flushed b sha c (resume b sha c w)) (hi : (resume b sha c w).inbox c = w.inbox c) : Flushed b sha c w := by
  obtain ⟨w', h1, h2, h3⟩ := h
  exact ⟨w', h1.step, h2, h3.trans hi⟩

omit [DecidableEq H] in
theorem send_open {c : Conn} {w : World S H} (x : Bytes) (p : Pos) (hc : w.closed c = false) :
    send b c x p w = { w with out := put w.out c (w.out c ++ [x]), pos := put w.pos c (some p) } := by
  simp only [send, hc, Bool.false_eq_true, ↓reduceIte]

/-- After the next file is begun, or the loop, the answer gets finished. Proof device; nothing in /repo. -/
def Ends (b : Backend S) (sha : Bytes → H) (c : Conn) (s : S) (files : List String) : Prop :=
  ∀ w : World S H, w.closed c = false → w.srv = s → ∃ w', Reach b sha c (nextOut b c w files) w' ∧ w'.pos c = some (.rx .header) ∧ w'.inbox c = w.inbox c

theorem read_flush {c : Conn} {s : S} {files : List String} (he : Ends b sha c s files) (k : Nat) : ∀ (p : String) (off : Nat) (w : World S H), w.closed c = false → w.srv = s →
    ((b.read s p).getD []).length ≤ off + k → w.pos c = some (.reading p off files) → Flushed b sha c w := by
  induction k with
  | zero =>
    intro p off w hc hs hk hp
    have hb : (((b.read w.srv p).getD []).drop off).take BLOCK_SIZE = [] := by
      rw [hs, List.drop_eq_nil_of_le (by omega)]; rfl
    have hr : resume b sha c w = nextOut b c w files := by simp only [resume, hp, hb]
    obtain ⟨w', h1, h2, h3⟩ := he w hc hs
    exact ⟨w', Reach.step (by rw [hr]; exact h1), h2, h3⟩
  | succ k ih =>
    intro p off w hc hs hk hp
    cases hb : (((b.read w.srv p).getD []).drop off).take BLOCK_SIZE with
    | nil =>
      have hr : resume b sha c w = nextOut b c w files := by simp only [resume, hp, hb]
      obtain ⟨w', h1, h2, h3⟩ := he w hc hs
      exact ⟨w', Reach.step (by rw [hr]; exact h1), h2, h3⟩
    | cons x xs =>
      have hr : resume b sha c w = send b c (x :: xs) (.reading p (off + BLOCK_SIZE) files) w := by simp only [resume, hp, hb]
      rw [send_open _ _ hc] at hr
      refine Flushed.after ?_ (by rw [hr])
      rw [hr]
      have hbs : BLOCK_SIZE = 4096 := rfl
      exact ih p (off + BLOCK_SIZE) _ hc hs (by omega) (by simp [put_same])

theorem files_end {c : Conn} {s : S} (files : List String) (hf : FilesOk b s files) : Ends b sha c s files := by
  induction files with
  | nil =>
    intro w hc hs
    exact ⟨_, .refl c _, by simp [nextOut, put_same], rfl⟩
  | cons f fs ih =>
    intro w hc hs
    obtain ⟨x, hx, hsd⟩ := hf f List.mem_cons_self
    obtain ⟨hd, hh⟩ := file_header hsd
    have hn : nextOut b c w (f :: fs) = { w with out := put w.out c (w.out c ++ [hd]), pos := put w.pos c (some (.reading f 0 fs)) } := by
      rw [← send_open (b := b) _ _ hc]
      simp only [nextOut, hs, hx, hh]
    rw [hn]
    exact read_flush (ih (fun g hg => hf g (List.mem_cons_of_mem _ hg))) _ f 0 _ hc hs (by rw [Nat.zero_add]; exact Nat.le_refl _) (by simp [put_same])

theorem send_flush {c : Conn} {files : List String} (parts : List Bytes) : ∀ (w : World S H), w.closed c = false → FilesOk b w.srv files →
    w.pos c = some (.sending parts files) → Flushed b sha c w := by
  induction parts with
  | nil =>
    intro w hc hf hp
    have hr : resume b sha c w = nextOut b c w files := by simp only [resume, hp]
    obtain ⟨w', h1, h2, h3⟩ := files_end files hf w hc rfl
    exact ⟨w', Reach.step (by rw [hr]; exact h1), h2, h3⟩
  | cons x xs ih =>
    intro w hc hf hp
    have hr : resume b sha c w = send b c x (.sending xs files) w := by simp only [resume, hp]
    rw [send_open _ _ hc] at hr
    refine Flushed.after ?_ (by rw [hr])
    rw [hr]
    exact ih _ hc hf (by simp [put_same])

theorem reach_alive (hfit : Fits b) {c : Conn} {w w' : World S H} {fut : List Bytes} (h : Reach b sha c w w') (ha : Alive b sha c w fut) : Alive b sha c w' fut := by
  obtain ⟨n, rfl⟩ := h
  induction n generalizing w with
  | zero => exact ha
  | succ n ih =>
    rw [List.replicate_succ]
    exact ih (resume_alive hfit ha)

theorem flush {c : Conn} {w : World S H} {fut : List Bytes} (ha : Alive b sha c w fut) (hn : w.pos c ≠ none) :
    ∃ w' r, Reach b sha c w w' ∧ w'.pos c = some (.rx r) ∧ w'.inbox c = w.inbox c := by
  obtain ⟨hc, h⟩ := ha
  cases hpos : w.pos c with
  | none => exact absurd hpos hn
  | some p =>
    rw [hpos] at h
    cases p with
    | done => cases h
    | rx r => exact ⟨w, r, .refl c w, hpos, rfl⟩
    | sending parts files =>
      obtain ⟨w', h1, h2, h3⟩ := send_flush parts w hc h.1 hpos
      exact ⟨w', _, h1, h2, h3⟩
    | reading p off files =>
      obtain ⟨w', h1, h2, h3⟩ := read_flush (files_end files h.1) ((b.read w.srv p).getD []).length p off w hc rfl (Nat.le_add_left _ _) hpos
      exact ⟨w', _, h1, h2, h3⟩

omit [DecidableEq H] in
theorem send_inbox (c : Conn) (x : Bytes) (p : Pos) (w : World S H) : (send b c x p w).inbox = w.inbox := by
  unfold send; split <;> rfl

theorem answer_inbox (c : Conn) (r : Request H) (w : World S H) : (answer b sha c r w).inbox = w.inbox := by
  simp only [answer]
  split
  · rfl
  · rw [send_inbox]

theorem resume_inbox {c : Conn} {w : World S H} {r : Rx} {f : Bytes} {fs : List Bytes} (hp : w.pos c = some (.rx r)) (hi : w.inbox c = f :: fs) :
    (resume b sha c w).inbox c = fs := by
  simp only [resume, hp, hi]
  split
  · simp [put_same]
  · simp [finish, put_same]
  · rw [answer_inbox]; simp [put_same]

theorem resume_pos {c : Conn} {w : World S H} (h : w.pos c ≠ none) : (resume b sha c w).pos c ≠ none := by
  have hfin : ∀ w : World S H, (finish b c w).pos c ≠ none := fun w => by simp [finish, put_same]
  have hsend : ∀ x p (w : World S H), (send b c x p w).pos c ≠ none := by
    intro x p w; unfold send; split
    · exact hfin w
    · simp [put_same]
  have hnext : ∀ files (w : World S H), (nextOut b c w files).pos c ≠ none := by
    intro files w
    cases files with
    | nil => simp [nextOut, put_same]
    | cons p ps =>
      simp only [nextOut]
      split
      · exact hfin w
      · split
        · exact hfin w
        · exact hsend _ _ w
  unfold resume
  split
  · exact h
  · exact h
  · split
    · split
      · exact hfin w
      · exact h
    · simp only
      split
      · simp [put_same]
      · exact hfin _
      · simp only [answer]
        split
        · exact hfin _
        · exact hsend _ _ _
  · exact hsend _ _ w
  · exact hnext _ w
  · split
    · exact hnext _ w
    · exact hsend _ _ w

omit [DecidableEq H] in
theorem cont_nil {hs : Table H} {r : Rx} {x : Request H × List Bytes} : cont sha hs r [] ≠ .ok x := by
  cases r <;> simp [cont, serverDecode, recvMany, recv, restFiles, receiveFiles, receiveFile, bind, Except.bind]

theorem reach_idle (hfit : Fits b) {c : Conn} (k : Nat) : ∀ {w : World S H}, (w.inbox c).length ≤ k → Alive b sha c w [] → w.pos c ≠ none →
    ∃ w', Reach b sha c w w' ∧ Idle w' c := by
  induction k with
  | zero =>
    intro w hk ha hn
    obtain ⟨w', r, h1, h2, h3⟩ := flush ha hn
    have ha' := (reach_alive hfit h1 ha).2
    have hi : w.inbox c = [] := List.eq_nil_of_length_eq_zero (by omega)
    rw [h2, h3, hi] at ha'
    rcases ha' with ⟨rfl, _⟩ | ⟨req, ws, hx, _⟩
    · exact ⟨w', h1, h2, h3.trans hi⟩
    · exact absurd hx cont_nil
  | succ k ih =>
    intro w hk ha hn
    obtain ⟨w', r, h1, h2, h3⟩ := flush ha hn
    have ha' := reach_alive hfit h1 ha
    cases hi : w.inbox c with
    | nil =>
      have ha'' := ha'.2
      rw [h2, h3, hi] at ha''
      rcases ha'' with ⟨rfl, _⟩ | ⟨req, ws, hx, _⟩
      · exact ⟨w', h1, h2, h3.trans hi⟩
      · exact absurd hx cont_nil
    | cons f fs =>
      have hin := resume_inbox (b := b) (sha := sha) h2 (h3.trans hi)
      obtain ⟨w'', h4, h5⟩ := ih (w := resume b sha c w') (by rw [hin]; rw [hi] at hk; simpa using hk) (resume_alive hfit ha') (resume_pos (by rw [h2]; exact (nomatch ·)))
      exact ⟨w'', h1.trans h4.step, h5⟩

theorem run_pos {c : Conn} (es : List Ev) : ∀ {w : World S H}, w.pos c ≠ none ∨ .connect c ∈ es → (run b sha w es).pos c ≠ none := by
  induction es with
  | nil => intro w h; rcases h with h | h
           · exact h
           · cases h
  | cons e es ih =>
    intro w h
    refine ih ?_
    by_cases hm : .connect c ∈ es
    · exact Or.inr hm
    · left
      rcases h with h | h
      · by_cases hc : c = e.conn
        · cases e with
          | connect d =>
            have hc : c = d := hc
            subst hc
            simp only [step]
            split
            · simp [put_same]
            · exact h
          | arrive d f => exact h
          | close d => exact h
          | resume d => have hc : c = d := hc; subst hc; exact resume_pos h
        · rw [(step_same (b := b) (sha := sha) e hc w).pos]; exact h
      · rcases List.mem_cons.1 h with rfl | h
        · simp only [step]
          split
          · simp [put_same]
          · rename_i hp; rw [hp]; exact (nomatch ·)
        · exact absurd h hm

/-- **C100** (progress): after any schedule in which `c` connected and all frames of its well-formed requests arrived, finitely many turns of its coroutine serve
everything and finish all its answers; no turn of another coroutine is needed. -/
theorem always_served (b : Backend S) (sha : Bytes → H) (hfit : Fits b) (s : S) (es : List Ev) (hu : Undisturbed b sha (World.init s) es) (c : Conn)
    (hconn : .connect c ∈ es) (hclose : .close c ∉ es) (reqs : List ReqSpec) (hok : ∀ r ∈ reqs, RequestOk r.1 r.2.1 r.2.2)
    (harr : arrivals c es = sentStream reqs) :
    ∃ n, Idle (run b sha (World.init s : World S H) (es ++ List.replicate n (.resume c))) c := by
  have ha := run_alive (sha := sha) hfit (w := World.init s) (fut := []) es hclose hu ⟨rfl, ⟨reqs, hok, by simpa [World.init] using harr⟩⟩
  have hp := run_pos (b := b) (sha := sha) (w := World.init s) (c := c) es (Or.inr hconn)
  obtain ⟨w', ⟨n, rfl⟩, h2⟩ := reach_idle hfit _ (Nat.le_refl _) ha hp
  refine ⟨n, ?_⟩
  simpa only [run, List.foldl_append] using h2

/-- **C100** (end to end): with separate files, for every schedule in which `c` connects and its requests arrive — mixed in any way with anything the other
connections do — and then enough turns for `c`: the backend has seen exactly the requests of `c` in their order, and what was sent to `c` are exactly the backend's
answers to them, where the state the backend answered from is that of the sequential server. -/
theorem client_served_in_full (b : Backend S) (sha : Bytes → H) (hfit : Fits b) (own : String → Conn) (hp : Private b own) (s : S) (es : List Ev) (c : Conn)
    (hconn : .connect c ∈ es) (hclose : .close c ∉ es) (reqs : List ReqSpec) (hok : ∀ r ∈ reqs, RequestOk r.1 r.2.1 r.2.2)
    (harr : arrivals c es = sentStream reqs) :
    ∃ n q, seqRun b sha (Seq.init s (fun d => arrivals d es)) (run b sha (World.init s : World S H) (es ++ List.replicate n (.resume c))).log = some q ∧
      q.srv = (run b sha (World.init s : World S H) (es ++ List.replicate n (.resume c))).srv ∧
      seen c q.hist = meant reqs ∧
      clientLoop sha reqs.length ((run b sha (World.init s : World S H) (es ++ List.replicate n (.resume c))).out c) = .ok (answers c q.hist, []) := by
  obtain ⟨n, hi⟩ := always_served b sha hfit s es (private_undisturbed b sha own hp s es) c hconn hclose reqs hok harr
  have harr' : ∀ d, arrivals d (es ++ List.replicate n (.resume c)) = arrivals d es := by
    intro d
    have h1 : arrivals d (es ++ List.replicate n (.resume c)) = arrivals d es ++ arrivals d (List.replicate n (.resume c)) := List.filterMap_append
    have h2 : arrivals d (List.replicate n (.resume c)) = [] := by
      unfold arrivals
      rw [List.filterMap_eq_nil_iff]
      intro e he
      rw [List.eq_of_mem_replicate he]
    rw [h1, h2, List.append_nil]
  obtain ⟨q, h1, h2, _, _⟩ := interleaving_is_sequential b sha s (es ++ List.replicate n (.resume c)) (fun _ => [])
  obtain ⟨q', h1', _, h3⟩ := client_requests_in_order b sha s (es ++ List.replicate n (.resume c)) c reqs hok (fun _ => []) (by simpa [harr'] using harr)
  obtain ⟨q'', h1'', h4⟩ := client_gets_its_answers b sha hfit s (es ++ List.replicate n (.resume c)) (fun _ => []) (private_undisturbed b sha own hp s _) c _ hi.1
  rw [h1] at h1' h1''
  cases h1'
  cases h1''
  have hseen := h3 hi rfl
  refine ⟨n, q, by simpa [harr'] using h1, h2, hseen, ?_⟩
  have hlen : (answers c q.hist).length = reqs.length := by
    have := congrArg List.length hseen
    simpa [seen, meant, answers] using this
  rw [← hlen]
  exact h4

end Osp.Frames
