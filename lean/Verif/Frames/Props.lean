import Verif.Frames.Inv
/-!
# Connections side by side: C100
-/
namespace Osp.Frames
open Osp.Wire

variable {S H : Type} [DecidableEq H]

/-- **C100** (sequential order): for every backend and every schedule of arriving connections and frames, of closings and of resumed coroutines, there is
an order of the requests — the order in which the backend was called — such that a server that serves one complete request at a time in
this order ends with the same shared state; every request is served with the data and files its connection sent for it, decoded as
if the connection were alone; to every connection the answers of the sequential server were sent, up to what is still on its way, and all of
it if the connection waits for a frame; and what was not served yet is what is still in its queue. `fut` is what the clients may
send later. The statement about the frames sent needs that no event changes a file another connection is still sending. -/
theorem interleaving_is_sequential (b : Backend S) (sha : Bytes → H) (s : S) (es : List Ev) (fut : Conn → List Bytes) :
    ∃ q, seqRun b sha (Seq.init s (fun c => arrivals c es ++ fut c)) (run b sha (World.init s) es).log = some q ∧
      q.srv = (run b sha (World.init s) es).srv ∧
      (∀ c, (run b sha (World.init s) es).pos c = some (.rx .header) → q.rest c = (run b sha (World.init s) es).inbox c ++ fut c) ∧
      (Undisturbed b sha (World.init s) es → ∀ c,
        (run b sha (World.init s) es).out c <+: q.sent c ∧
        ∀ r, (run b sha (World.init s) es).pos c = some (.rx r) → (run b sha (World.init s) es).out c = q.sent c) := by
  obtain ⟨as, q, h1, h2, h3⟩ := run_next (U := True) (b := b) (sha := sha) (fut := fut) es (init_good s (fun c => arrivals c es ++ fut c))
  have hl : (run b sha (World.init s) es).log = as := by rw [h1]; rfl
  refine ⟨q, by rw [hl]; exact h2, h3.srv, ?_, ?_⟩
  · intro c hc
    have := h3.inv c
    rw [hc] at this
    exact (this.2 rfl).2
  · intro hu c
    refine ⟨(h3.part (c := c)).own ⟨trivial, hu⟩, ?_⟩
    intro r hr
    have := h3.out ⟨trivial, hu⟩ c
    rw [hr] at this
    simpa [Out1, pending] using this.symm

/-- **C100** (real time): what was served stays served in this order; later events only add to it. With `interleaving_is_sequential` for every moment: a request whose
answer has been sent comes before every request that is sent afterwards. -/
theorem order_respects_time (b : Backend S) (sha : Bytes → H) (s : S) (es es' : List Ev) :
    (run b sha (World.init s) es).log <+: (run b sha (World.init s : World S H) (es ++ es')).log := by
  have hsplit : run b sha (World.init s : World S H) (es ++ es') = run b sha (run b sha (World.init s) es) es' := by
    simp only [run, List.foldl_append]
  obtain ⟨as, q, h1, h2, h3⟩ := run_next (U := True) (b := b) (sha := sha) (fut := fun c => arrivals c es' ++ []) es (init_good s (fun c => arrivals c es ++ (arrivals c es' ++ [])))
  obtain ⟨as', q', h4, _, _⟩ := run_next (b := b) (sha := sha) (fut := fun _ => []) es' h3
  rw [hsplit, h4]
  exact List.prefix_append _ _

/-! ### What a client experiences -/

/-- What the backend saw of a connection. Specification. -/
def seen (c : Conn) (hist : List Handled) : List (String × String × Dir) :=
  (hist.filter (fun h => decide (h.conn = c))).map (fun h => (h.command, h.data, h.dir))

/-- The answers of the backend to a connection. Specification. -/
def answers (c : Conn) (hist : List Handled) : List String :=
  (hist.filter (fun h => decide (h.conn = c))).map Handled.response

/-- What the requests of a client contain. Specification. -/
def meant (reqs : List ReqSpec) : List (String × String × Dir) := reqs.map (fun r => (r.1, r.2.1, fun n => lastWithName n r.2.2))

omit [DecidableEq H] in
theorem sentStream_cons (r : ReqSpec) (rs : List ReqSpec) : sentStream (r :: rs) = (clientEncode r.1 r.2.1 (r.2.2.map some)).frames ++ sentStream rs := by
  simp [sentStream]

theorem seqRun_seen {b : Backend S} {sha : Bytes → H} {c : Conn} {reqs : List ReqSpec} (hok : ∀ r ∈ reqs, RequestOk r.1 r.2.1 r.2.2)
    (as : List Act) : ∀ {q q' : Seq S H} {done rest : List ReqSpec}, reqs = done ++ rest → q.rest c = sentStream rest → seen c q.hist = meant done →
    seqRun b sha q as = some q' → ∃ done' rest', reqs = done' ++ rest' ∧ q'.rest c = sentStream rest' ∧ seen c q'.hist = meant done' := by
  induction as with
  | nil =>
    intro q q' done rest h1 h2 h3 h
    cases h
    exact ⟨done, rest, h1, h2, h3⟩
  | cons a as ih =>
    intro q q' done rest h1 h2 h3 h
    cases hs : seqStep b sha q a with
    | none => simp [seqRun, List.foldlM_cons, hs] at h
    | some q1 =>
      rw [seqRun_one q a q1 hs] at h
      cases a with
      | leave d =>
        simp only [seqStep, Option.some.injEq] at hs
        subst hs
        exact ih (q := { q with srv := b.leave q.srv d }) h1 h2 h3 h
      | serve d =>
        simp only [seqStep] at hs
        split at hs
        · cases hs
        · rename_i r ws hdec
          simp only [Option.some.injEq] at hs
          subst hs
          by_cases hd : d = c
          · subst hd
            cases rest with
            | nil =>
              rw [h2] at hdec
              simp [sentStream, serverDecode, recv, bind, Except.bind] at hdec
            | cons r0 rs =>
              obtain ⟨_, st', e1, e2, _⟩ := request_roundtrip sha r0.1 r0.2.1 r0.2.2 (hok r0 (by rw [h1]; simp)) ⟨fun _ => none, q.tab d⟩ (sentStream rs)
              rw [h2, sentStream_cons, e1] at hdec
              simp only [Except.ok.injEq, Prod.mk.injEq] at hdec
              obtain ⟨rfl, rfl⟩ := hdec
              have hdir : st'.dir = fun n => lastWithName n r0.2.2 := by
                funext n; rw [e2]; cases lastWithName n r0.2.2 <;> rfl
              refine ih (done := done ++ [r0]) (rest := rs) (by rw [h1]; simp) (by simp [put_same]) ?_ h
              simp only [seen, List.filter_append, List.map_append, meant, hdir]
              have h3' := h3
              simp only [seen, meant] at h3'
              rw [h3']
              simp
          · refine ih h1 (by simp only [put_other _ _ (Ne.symm hd)]; exact h2) ?_ h
            simp only [seen, List.filter_append, List.map_append]
            have h3' := h3
            simp only [seen] at h3'
            rw [h3']
            simp [hd]

theorem sentStream_eq_nil {reqs : List ReqSpec} (hok : ∀ r ∈ reqs, RequestOk r.1 r.2.1 r.2.2) (h : sentStream reqs = []) : reqs = [] := by
  cases reqs with
  | nil => rfl
  | cons r rs =>
    exfalso
    obtain ⟨_, st', e1, _⟩ := request_roundtrip (H := Unit) (fun _ => ()) r.1 r.2.1 r.2.2 (hok r (by simp)) ⟨fun _ => none, fun _ => none⟩ []
    rw [sentStream_cons] at h
    rw [(List.append_eq_nil_iff.1 h).1] at e1
    simp [serverDecode, recv, bind, Except.bind] at e1

/-- **C100** (one client among many): if what has arrived from `c` is a part of the stream of some well-formed requests, then — whatever the other connections
send, well-formed or not, and however the schedule mixes them — the backend saw from `c` these requests in this order, each with exactly its command, data
and files, up to some point; and all of them if everything has arrived and the connection is idle. -/
theorem client_requests_in_order (b : Backend S) (sha : Bytes → H) (s : S) (es : List Ev) (c : Conn) (reqs : List ReqSpec)
    (hok : ∀ r ∈ reqs, RequestOk r.1 r.2.1 r.2.2) (fut : Conn → List Bytes) (harr : arrivals c es ++ fut c = sentStream reqs) :
    ∃ q, seqRun b sha (Seq.init s (fun c => arrivals c es ++ fut c)) (run b sha (World.init s) es).log = some q ∧
      seen c q.hist <+: meant reqs ∧
      (Idle (run b sha (World.init s) es) c → fut c = [] → seen c q.hist = meant reqs) := by
  obtain ⟨q, h1, _, h3, _⟩ := interleaving_is_sequential b sha s es fut
  obtain ⟨done, rest, e1, e2, e3⟩ := seqRun_seen (c := c) hok _ (done := []) (rest := reqs) rfl (by simpa [Seq.init] using harr) rfl h1
  refine ⟨q, h1, ?_, ?_⟩
  · rw [e3, e1]
    simp only [meant, List.map_append]
    exact List.prefix_append _ _
  · intro hi hf
    have := h3 c hi.1
    rw [hi.2, hf, List.nil_append, e2] at this
    have hr := sentStream_eq_nil (fun r hr => hok r (by rw [e1]; exact List.mem_append_right _ hr)) this
    rw [e3, e1, hr, List.append_nil]

/-- The backend answers with at most as much as the header of an answer can express, and with files that can be sent. Specification. -/
def Fits (b : Backend S) : Prop := ∀ s c command data dir,
  ceilDiv (utf8 (b.handle s c command data dir).2.1).length BLOCK_SIZE < 256 ^ 5 ∧ (b.handle s c command data dir).2.2.length < 256 ^ 2 ∧
    ∀ p ∈ (b.handle s c command data dir).2.2, ∀ x, b.read (b.handle s c command data dir).1 p = some x → Sendable ⟨p, x⟩

/-- A client that reads `n` answers. communication_engine.py 200-226, the receiving part of `n` calls. -/
def clientLoop {H : Type} (sha : Bytes → H) : Nat → List Bytes → Except PyErr (List String × List Bytes)
  | 0, ws => .ok ([], ws)
  | n + 1, ws => do
    let (r, _, ws) ← clientDecode sha (fun _ => none) ws
    let (rs, ws) ← clientLoop sha n ws
    .ok (r :: rs, ws)

omit [DecidableEq H] in
theorem clientLoop_snoc (sha : Bytes → H) (n : Nat) : ∀ (ws mid rest : List Bytes) (rs : List String) (r : String) (dir : Dir),
    clientLoop sha n ws = .ok (rs, mid) → clientDecode sha (fun _ => none) mid = .ok (r, dir, rest) →
    clientLoop sha (n + 1) ws = .ok (rs ++ [r], rest) := by
  induction n with
  | zero =>
    intro ws mid rest rs r dir h1 h2
    simp only [clientLoop, Except.ok.injEq, Prod.mk.injEq] at h1
    obtain ⟨rfl, rfl⟩ := h1
    simp only [clientLoop, bind, Except.bind, h2, List.nil_append]
  | succ n ih =>
    intro ws mid rest rs r dir h1 h2
    rw [clientLoop] at h1 ⊢
    cases hd : clientDecode sha (fun _ => none) ws with
    | error e => simp [bind, Except.bind, hd] at h1
    | ok v =>
      simp only [bind, Except.bind, hd] at h1 ⊢
      cases hl : clientLoop sha n v.2.2 with
      | error e => simp [hl] at h1
      | ok u =>
        simp only [hl, Except.ok.injEq, Prod.mk.injEq] at h1
        obtain ⟨h3, h4⟩ := h1
        rw [ih v.2.2 mid rest u.1 r dir (by rw [hl, ← h4]) h2]
        simp only [← h3, List.cons_append]

theorem filterFiles_sublist (sha : Bytes → H) (files : List (Option File)) : ∀ hs : Table H, (filterFiles sha files hs).1.Sublist (existing files) := by
  induction files with
  | nil => intro hs; exact .slnil
  | cons f fs ih =>
    intro hs
    cases f with
    | none => exact ih hs
    | some f =>
      simp only [filterFiles]
      split
      · exact .cons _ (ih _)
      · exact .cons_cons _ (ih _)

/-- Whatever the table of hashes, the client decodes the answer and consumes its frames. -/
theorem respond_decodes (sha : Bytes → H) (hs : Table H) (response : String) (files : List (Option File)) (rest : List Bytes)
    (hr : ceilDiv (utf8 response).length BLOCK_SIZE < 256 ^ 5) (hf : files.length < 256 ^ 2) (hsend : ∀ f ∈ existing files, Sendable f) :
    ∃ dir, clientDecode sha (fun _ => none) ((serverRespond sha hs response files).1.frames ++ rest) = .ok (response, dir, rest) := by
  obtain ⟨flt, hs', hflt⟩ : ∃ flt hs', filterFiles sha files hs = (flt, hs') := ⟨_, _, rfl⟩
  have hsub' := filterFiles_sublist sha files hs
  rw [hflt] at hsub'
  have hlen : flt.length ≤ files.length := by
    have h1 := hsub'.length_le
    have h2 : (existing files).length ≤ files.length := List.length_filterMap_le _ _
    simp only at h1
    omega
  have hsendf : ∀ f ∈ flt, Sendable f := fun f hfm => hsend f (hsub'.subset hfm)
  have hok : HeaderOk [.int VERSION, .int (splitMessage response).1, .int flt.length] LEN_HEADER :=
    ⟨_, .cons ⟨1, rfl, by decide⟩ (.cons ⟨_, rfl, hr⟩ (.cons ⟨_, rfl, by omega⟩ .nil)), Or.inl rfl⟩
  obtain ⟨hdr, h1, h2⟩ := header_encodable _ _ hok
  have hresp : serverRespond sha hs response files =
      (⟨hdr :: (splitMessage response).2 ++ (encodeFiles (flt.map some)).frames, (encodeFiles (flt.map some)).err⟩, hs') := by
    unfold serverRespond
    rw [hflt]
    simp only [h1, Sent.andThen]
  obtain ⟨e1, st', e2, e3, _⟩ := files_roundtrip sha flt hsendf ⟨fun _ => none, fun _ => none⟩ rest
  rw [hresp]
  refine ⟨st'.dir, ?_⟩
  unfold clientDecode
  simp only [List.cons_append, recv, bind, Except.bind, h2, delivered, List.getLast?_cons_cons, List.getLast?_singleton,
    Option.some.injEq, reduceCtorEq, ↓reduceIte, List.append_assoc, Int.toNat_natCast]
  rw [split_join response BLOCK_SIZE (by decide)]
  simp only
  rw [e2]

theorem seqRun_answers {b : Backend S} {sha : Bytes → H} (hfit : Fits b) (c : Conn) (as : List Act) : ∀ {q q' : Seq S H},
    (∀ rest, clientLoop sha (answers c q.hist).length (q.sent c ++ rest) = .ok (answers c q.hist, rest)) →
    seqRun b sha q as = some q' → ∀ rest, clientLoop sha (answers c q'.hist).length (q'.sent c ++ rest) = .ok (answers c q'.hist, rest) := by
  induction as with
  | nil => intro q q' h1 h; cases h; exact h1
  | cons a as ih =>
    intro q q' h1 h
    cases hs : seqStep b sha q a with
    | none => simp [seqRun, List.foldlM_cons, hs] at h
    | some q1 =>
      rw [seqRun_one q a q1 hs] at h
      refine ih ?_ h
      cases a with
      | leave d =>
        simp only [seqStep, Option.some.injEq] at hs
        subst hs
        exact h1
      | serve d =>
        simp only [seqStep] at hs
        split at hs
        · cases hs
        · rename_i r ws hdec
          simp only [Option.some.injEq] at hs
          subst hs
          by_cases hd : d = c
          · subst hd
            intro rest
            obtain ⟨f1, f2, f3⟩ := hfit q.srv d r.command r.data r.st.dir
            have hsend : ∀ f ∈ existing ((b.handle q.srv d r.command r.data r.st.dir).2.2.map
                (fun p => (b.read (b.handle q.srv d r.command r.data r.st.dir).1 p).map (File.mk p))), Sendable f := by
              intro f hf
              simp only [existing, List.mem_filterMap, List.mem_map, id] at hf
              obtain ⟨o, ⟨p, hp, rfl⟩, ho⟩ := hf
              obtain ⟨x, hx, rfl⟩ := Option.map_eq_some_iff.1 ho
              exact f3 p hp x hx
            obtain ⟨dir, hdir⟩ : ∃ dir, clientDecode sha (fun _ => none) ((serverRespond sha r.st.hashes (b.handle q.srv d r.command r.data r.st.dir).2.1
                ((b.handle q.srv d r.command r.data r.st.dir).2.2.map (fun p => (b.read (b.handle q.srv d r.command r.data r.st.dir).1 p).map (File.mk p)))).1.frames ++ rest) =
                .ok ((b.handle q.srv d r.command r.data r.st.dir).2.1, dir, rest) :=
              respond_decodes sha _ _ _ _ f1 (by simpa using f2) hsend
            simp only [put_same, List.append_assoc]
            have hans : answers d (q.hist ++ [⟨d, r.command, r.data, r.st.dir, (b.handle q.srv d r.command r.data r.st.dir).2.1⟩]) =
                answers d q.hist ++ [(b.handle q.srv d r.command r.data r.st.dir).2.1] := by
              simp [answers]
            rw [hans, List.length_append]
            exact clientLoop_snoc sha _ _ _ _ _ _ dir (h1 _) hdir
          · have hans : answers c (q.hist ++ [⟨d, r.command, r.data, r.st.dir, (b.handle q.srv d r.command r.data r.st.dir).2.1⟩]) = answers c q.hist := by
              simp [answers, hd]
            rw [hans]
            simp only [put_other _ _ (Ne.symm hd)]
            exact h1

/-- **C100** (answers): if no file is changed while another connection sends it, then the frames sent to a connection that waits for a frame are exactly
the answers of the backend to the requests of this connection in their order: a client that reads as many answers as requests of
its were served gets these answers and nothing is left. No frame of another connection's answer is among them. -/
theorem client_gets_its_answers (b : Backend S) (sha : Bytes → H) (hfit : Fits b) (s : S) (es : List Ev) (fut : Conn → List Bytes)
    (hu : Undisturbed b sha (World.init s) es) (c : Conn) (r : Rx) (hc : (run b sha (World.init s) es).pos c = some (.rx r)) :
    ∃ q, seqRun b sha (Seq.init s (fun c => arrivals c es ++ fut c)) (run b sha (World.init s) es).log = some q ∧
      clientLoop sha (answers c q.hist).length ((run b sha (World.init s) es).out c) = .ok (answers c q.hist, []) := by
  obtain ⟨q, h1, _, _, h4⟩ := interleaving_is_sequential b sha s es fut
  refine ⟨q, h1, ?_⟩
  have := seqRun_answers hfit c _ (fun rest => by simp [Seq.init, answers, clientLoop]) h1 []
  rw [List.append_nil] at this
  rw [(h4 hu c).2 r hc]
  exact this

end Osp.Frames
