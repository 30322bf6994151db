import Verif.Tq.Batch
/-!
C183: datagrams received and sent in batches: which ones, in which order, what
is reported, and that a reader is woken.
-/

namespace Verif.Props.C183
open Verif Verif.Batch

/-- The datagrams at the front of a queue, up to the first pending error. -/
def lead : List Item → List Dg
  | .dgram d :: q => d :: lead q
  | _ => []

/-- The buffers with these datagrams put into the first of them, cut to the room
that each has. -/
def fill : List RBuf → List Dg → List RBuf
  | b :: bs, d :: ds => b.take d :: fill bs ds
  | bs, _ => bs

/-- How many datagrams a batch can have. -/
def count (bufs : List RBuf) (q : List Item) : Nat := min bufs.length (lead q).length

theorem fill_nil (bs : List RBuf) : fill bs [] = bs := by cases bs <;> rfl

theorem fill_length (bs : List RBuf) (ds : List Dg) : (fill bs ds).length = bs.length := by
  induction bs generalizing ds with
  | nil => cases ds <;> rfl
  | cons b bs ih => cases ds with
    | nil => rfl
    | cons d ds => simp [fill, ih]

theorem lead_drop (q : List Item) (n : Nat) (h : n ≤ (lead q).length) :
    lead (q.drop n) = (lead q).drop n := by
  induction n generalizing q with
  | zero => rfl
  | succ n ih =>
    match q with
    | [] => simp [lead] at h
    | .fault e :: q => simp [lead] at h
    | .dgram d :: q => simp only [lead, List.drop_succ_cons]; exact ih q (by simpa [lead] using h)

/-- Once a datagram has been received. -/
theorem kRecv_true (bs : List RBuf) (q : List Item) :
    kRecv true bs q = (fill bs (lead q), count bs q, none, q.drop (count bs q)) := by
  induction bs generalizing q with
  | nil => simp [kRecv, fill, count]
  | cons b bs ih =>
    match q with
    | [] => simp [kRecv, fill, lead, count]
    | .fault e :: q => simp [kRecv, fill, lead, count]
    | .dgram d :: q =>
      simp only [kRecv, ih q, fill, lead, count, List.length_cons, Nat.add_min_add_right,
        List.drop_succ_cons]

/-- The first datagram of a call. -/
theorem kRecv_false (bs : List RBuf) (q : List Item) (h : 0 < count bs q) :
    kRecv false bs q = (fill bs (lead q), count bs q, none, q.drop (count bs q)) := by
  match bs, q with
  | [], _ => simp [count] at h
  | _ :: _, [] => simp [count, lead] at h
  | _ :: _, .fault e :: q => simp [count, lead] at h
  | b :: bs, .dgram d :: q =>
    simp only [kRecv, kRecv_true, fill, lead, count, List.length_cons, Nat.add_min_add_right,
      List.drop_succ_cons]

/-- The error at a place of the queue. -/
def faultAt (q : List Item) (n : Nat) : Option Nat :=
  match q[n]? with
  | some (.fault e) => some e
  | _ => none

/-- The loop asks again after a full chunk, and when it is the first. -/
def Asks (bufs : List RBuf) (q : List Item) : Prop :=
  count bufs q % 16 = 0 ∧ count bufs q < bufs.length

instance (bufs : List RBuf) (q : List Item) : Decidable (Asks bufs q) := by
  unfold Asks; infer_instance

/-- How many pending errors the call takes from the queue. -/
def taken (bufs : List RBuf) (q : List Item) : Nat :=
  if Asks bufs q ∧ (faultAt q (count bufs q)).isSome then 1 else 0

theorem fill_split (bufs : List RBuf) (ds : List Dg) (n : Nat) :
    fill (bufs.take n) ds ++ fill (bufs.drop n) (ds.drop n) = fill bufs ds := by
  induction n generalizing bufs ds with
  | zero => simp; cases ds <;> simp [fill]
  | succ n ih =>
    match bufs, ds with
    | [], ds => simp [fill]
    | b :: bs, [] => simp [fill_nil]
    | b :: bs, d :: ds => simp [fill, ih]

theorem lead_zero {q : List Item} (h : (lead q).length = 0) :
    q = [] ∨ ∃ e q', q = .fault e :: q' := by
  match q with
  | [] => exact .inl rfl
  | .fault e :: q => exact .inr ⟨e, q, rfl⟩
  | .dgram d :: q => simp [lead] at h

theorem recvLoop_eq (fuel : Nat) (bufs : List RBuf) (errno : Nat) (q : List Item)
    (h : bufs.length ≤ fuel) :
    recvLoop fuel bufs errno q =
      ⟨fill bufs (lead q), count bufs q,
        if Asks bufs q then (faultAt q (count bufs q)).getD eagain else errno,
        q.drop (count bufs q + taken bufs q)⟩ := by
  induction fuel generalizing bufs q with
  | zero =>
    have : bufs = [] := List.eq_nil_of_length_eq_zero (by omega)
    subst this
    simp [recvLoop, fill, count, taken, Asks]
  | succ fuel ih =>
    by_cases hb : bufs = []
    · subst hb
      simp [recvLoop, fill, count, taken, Asks]
    · have hpos : 0 < bufs.length := by
        cases bufs with
        | nil => exact absurd rfl hb
        | cons b bs => simp
      rw [recvLoop, if_neg hb]
      by_cases hz : (lead q).length = 0
      · -- nothing to be had
        have hc : count bufs q = 0 := by simp [count, hz]
        have hl : lead q = [] := List.eq_nil_of_length_eq_zero hz
        have ha : Asks bufs q := ⟨by rw [hc], by rw [hc]; exact hpos⟩
        cases bufs with
        | nil => exact absurd rfl hb
        | cons b bs =>
          rcases lead_zero hz with he | ⟨e, q', he⟩
          · subst he
            simp [kRecv, fill_nil, lead, hc, ha, faultAt, taken]
          · subst he
            simp [kRecv, fill_nil, lead, hc, ha, faultAt, taken]
      · have hc1 : count (bufs.take maxMmsg) q = min (min 16 bufs.length) (lead q).length := by
          simp [count]
        have hcp : 0 < count (bufs.take maxMmsg) q := by rw [hc1]; omega
        rw [kRecv_false _ _ hcp]
        simp only
        by_cases hn : count (bufs.take maxMmsg) q < maxMmsg
        · rw [if_pos hn]
          have hcc : count bufs q = count (bufs.take maxMmsg) q := by
            rw [hc1] at hn ⊢
            simp only [count, maxMmsg] at hn ⊢
            omega
          have hna : ¬ Asks bufs q := by
            intro ha
            have := ha.1
            rw [hcc] at this
            have hn' : count (bufs.take maxMmsg) q < 16 := hn
            omega
          have hsplit := fill_split bufs (lead q) maxMmsg
          have hrest : fill (bufs.drop maxMmsg) ((lead q).drop maxMmsg) = bufs.drop maxMmsg := by
            by_cases hl : bufs.length ≤ 16
            · rw [List.drop_eq_nil_of_le hl]; cases (lead q).drop maxMmsg <;> rfl
            · have : (lead q).length ≤ 16 := by
                rw [hc1] at hn; simp only [maxMmsg] at hn; omega
              rw [List.drop_eq_nil_of_le (as := lead q) this, fill_nil]
          rw [hrest] at hsplit
          rw [hsplit, hcc]
          simp [hna, taken]
        · rw [if_neg hn]
          have h16 : count (bufs.take maxMmsg) q = 16 := by
            rw [hc1] at hn ⊢; simp only [maxMmsg] at hn; omega
          have hb16 : 16 ≤ bufs.length := by rw [hc1] at h16; omega
          have hq16 : 16 ≤ (lead q).length := by rw [hc1] at h16; omega
          have hld : lead (q.drop 16) = (lead q).drop 16 := lead_drop q 16 hq16
          have hcd : count bufs q = 16 + count (bufs.drop 16) (q.drop 16) := by
            simp only [count, hld, List.length_drop]
            omega
          have hf : faultAt (q.drop 16) (count (bufs.drop 16) (q.drop 16)) =
              faultAt q (count bufs q) := by
            simp only [faultAt, List.getElem?_drop, hcd]
          have hask : Asks (bufs.drop 16) (q.drop 16) ↔ Asks bufs q := by
            simp only [Asks, hcd, List.length_drop]
            omega
          rw [h16, ih (bufs.drop maxMmsg) (q.drop 16) (by simp only [List.length_drop, maxMmsg]; omega)]
          simp only [maxMmsg, hld, fill_split, ← hcd]
          have ht : taken (bufs.drop 16) (q.drop 16) = taken bufs q := by
            simp only [taken, hf, hask]
          simp only [ht, hf, hask, List.drop_drop]
          congr 1
          congr 1
          omega

/-- **Receiving a batch.** As many datagrams as there are, up to the number of
buffers and up to the first pending error, go into the first buffers, in order,
each cut to its buffer; the other buffers are as before. They are gone from the
queue, and nothing else is, except possibly one pending error. -/
theorem received (bufs : List RBuf) (errno : Nat) (q : List Item) :
    (recvmmsg bufs errno q).2.bufs = fill bufs (lead q) ∧
    (recvmmsg bufs errno q).2.queue = q.drop (count bufs q + taken bufs q) ∧
    (0 < count bufs q → (recvmmsg bufs errno q).1 = .ok (count bufs q)) := by
  unfold recvmmsg
  rw [recvLoop_eq _ _ _ _ (Nat.le_refl _)]
  refine ⟨rfl, rfl, ?_⟩
  intro h
  simp only [result]
  rw [if_neg (by omega)]

/-- When there is nothing: the pending error, which is then taken, or that the
call would block. -/
theorem nothing (b : RBuf) (bs : List RBuf) (errno : Nat) (q : List Item) :
    ((recvmmsg (b :: bs) errno []).1 = .error eagain ∧
      (recvmmsg (b :: bs) errno []).2.queue = []) ∧
    ∀ e, (recvmmsg (b :: bs) errno (.fault e :: q)).1 = .error e ∧
      (recvmmsg (b :: bs) errno (.fault e :: q)).2.queue = q := by
  constructor
  · simp [recvmmsg, recvLoop, kRecv, result]
  · intro e
    simp [recvmmsg, recvLoop, kRecv, result]

/-- A pending error stays in the queue for the next call, unless the datagrams
before it are a multiple of sixteen. -/
theorem kept_partial (bufs : List RBuf) (errno : Nat) (q : List Item)
    (h : count bufs q % 16 ≠ 0) :
    (recvmmsg bufs errno q).2.queue = q.drop (count bufs q) := by
  rw [(received bufs errno q).2.1]
  have : taken bufs q = 0 := by
    unfold taken
    rw [if_neg]
    intro ha
    exact h ha.1.1
  rw [this, Nat.add_zero]

/-- After sixteen datagrams the error behind them is taken and never told: the
call reports sixteen datagrams, and the next one finds nothing. -/
theorem kept_false (ds : List Dg) (b : RBuf) (bufs : List RBuf) (errno e : Nat) (q : List Item)
    (hd : ds.length = 16) (hb : bufs.length = 16) :
    (recvmmsg (bufs ++ [b]) errno (ds.map .dgram ++ .fault e :: q)).1 = .ok 16 ∧
    (recvmmsg (bufs ++ [b]) errno (ds.map .dgram ++ .fault e :: q)).2.queue = q := by
  have hl : ∀ ds : List Dg, lead (ds.map .dgram ++ .fault e :: q) = ds := by
    intro ds
    induction ds with
    | nil => rfl
    | cons d ds ih => simp [lead, ih]
  have hc : count (bufs ++ [b]) (ds.map .dgram ++ .fault e :: q) = 16 := by
    simp [count, hl, hd, hb]
  have hf : faultAt (ds.map .dgram ++ .fault e :: q) 16 = some e := by
    simp [faultAt, List.getElem?_append_right, hd]
  have ht : taken (bufs ++ [b]) (ds.map .dgram ++ .fault e :: q) = 1 := by
    have ha : Asks (bufs ++ [b]) (ds.map .dgram ++ .fault e :: q) := by
      unfold Asks
      rw [hc]
      simp [hb]
    unfold taken
    rw [hc, hf, if_pos ⟨ha, rfl⟩]
  have := received (bufs ++ [b]) errno (ds.map .dgram ++ .fault e :: q)
  rw [hc, ht] at this
  refine ⟨this.2.2 (by omega), ?_⟩
  rw [this.2.1]
  have : (16 + 1) = (ds.map Item.dgram).length + 1 := by simp [hd]
  rw [this, ← List.drop_drop]
  simp

/-- A datagram that does not fit is cut and reported like any other. -/
theorem cut_false : ∃ (b : RBuf) (d : Dg),
    recvmmsg [b] 0 [.dgram d] = recvmmsg [b] 0 [.dgram (d.take b.room)] ∧ d ≠ d.take b.room :=
  ⟨⟨[], 2⟩, [1, 2, 3], by decide, by decide⟩

/-! ### Waking the reader -/

/-- Calls of the reader and arrivals. -/
inductive Ev where
  | arrive (i : Item)
  | poll (bufs : List RBuf)

/-- One event. -/
def step (s : Sock) : Ev → Sock
  | .arrive i => arrive s i
  | .poll bufs => (pollRecv s bufs).2.2

/-- The runtime believes the socket to be ready whenever there is something. -/
def Awake (s : Sock) : Prop := s.queue ≠ [] → s.ready = true

theorem recvmmsg_again (b : RBuf) (bs : List RBuf) (errno : Nat) (q : List Item)
    (hq : ∀ i ∈ q, i ≠ .fault eagain)
    (h : (recvmmsg (b :: bs) errno q).1 = .error eagain) : q = [] := by
  by_cases hc : 0 < count (b :: bs) q
  · rw [(received _ _ _).2.2 hc] at h; cases h
  · have hz : (lead q).length = 0 := by
      simp only [count, List.length_cons] at hc; omega
    rcases lead_zero hz with he | ⟨e, q', he⟩
    · exact he
    · subst he
      have := ((nothing b bs errno q').2 e).1
      rw [this] at h
      cases h
      exact absurd rfl (hq (.fault eagain) (by simp))

/-- **No datagram waits unseen.** In every sequence of arrivals and calls with at
least one buffer, a call that has to wait has found nothing, and something that
arrives later wakes the reader. -/
theorem woken_partial (s : Sock) (evs : List Ev) (h : Awake s)
    (hs : ∀ i ∈ s.queue, i ≠ .fault eagain)
    (he : ∀ i, Ev.arrive i ∈ evs → i ≠ .fault eagain)
    (hb : ∀ bufs, Ev.poll bufs ∈ evs → bufs ≠ []) (bufs : List RBuf) (hn : bufs ≠ []) :
    Awake (evs.foldl step s) ∧
    ((pollRecv (evs.foldl step s) bufs).1 = .pending ↔ (evs.foldl step s).queue = []) := by
  have key : ∀ (evs : List Ev) (s : Sock), Awake s → (∀ i ∈ s.queue, i ≠ .fault eagain) →
      (∀ i, Ev.arrive i ∈ evs → i ≠ .fault eagain) →
      (∀ bufs, Ev.poll bufs ∈ evs → bufs ≠ []) →
      Awake (evs.foldl step s) ∧ ∀ i ∈ (evs.foldl step s).queue, i ≠ .fault eagain := by
    intro evs
    induction evs with
    | nil => intro s h hs _ _; exact ⟨h, hs⟩
    | cons ev evs ih =>
      intro s h hs he hb
      simp only [List.foldl_cons]
      refine ih (step s ev) ?_ ?_ (fun i hi => he i (by simp [hi])) (fun b hi => hb b (by simp [hi]))
      · cases ev with
        | arrive i => intro _; rfl
        | poll bs =>
          have hbs := hb bs (by simp)
          cases bs with
          | nil => exact absurd rfl hbs
          | cons b bs =>
            simp only [step, pollRecv]
            cases hr : s.ready with
            | false => simp only [Bool.false_eq_true, if_false]; exact h
            | true =>
              simp only [if_true]
              split
              · rename_i hx
                have hq := recvmmsg_again b bs s.errno s.queue hs hx
                intro hne
                exfalso
                apply hne
                show (recvmmsg (b :: bs) s.errno s.queue).2.queue = []
                rw [hq]
                exact (nothing b bs s.errno []).1.2
              · intro _; rfl
      · cases ev with
        | arrive i =>
          intro j hj
          simp only [step, arrive, List.mem_append, List.mem_singleton] at hj
          rcases hj with hj | hj
          · exact hs j hj
          · subst hj; exact he j (by simp)
        | poll bs =>
          intro j hj
          simp only [step, pollRecv] at hj
          cases hr : s.ready with
          | false => rw [hr] at hj; exact hs j hj
          | true =>
            rw [hr] at hj
            simp only [if_true] at hj
            have hsub : j ∈ (recvmmsg bs s.errno s.queue).2.queue := by
              split at hj <;> exact hj
            rw [(received bs s.errno s.queue).2.1] at hsub
            exact hs j (List.mem_of_mem_drop hsub)
  obtain ⟨ha, hq⟩ := key evs s h hs he hb
  refine ⟨ha, ?_⟩
  generalize evs.foldl step s = t at *
  cases bufs with
  | nil => exact absurd rfl hn
  | cons b bs =>
    simp only [pollRecv]
    cases hr : t.ready with
    | false =>
      simp only [Bool.false_eq_true, if_false, true_iff]
      by_cases hz : t.queue = []
      · exact hz
      · have := ha hz; rw [hr] at this; cases this
    | true =>
      simp only [if_true]
      constructor
      · intro hx
        split at hx
        · rename_i hx'
          exact recvmmsg_again b bs t.errno t.queue hq hx'
        · cases hx
      · intro hx
        rw [hx, if_pos (nothing b bs t.errno []).1.1]

/-- A call with no buffers reports whatever error the thread had last. If that
was "would block", the runtime is told that the socket is not ready: a datagram
that is there waits until another one arrives. -/
theorem woken_false (d : Dg) (b : RBuf) :
    ∃ s : Sock, s.queue = [.dgram d] ∧ s.ready = true ∧
      (pollRecv s [b]).1 = .ready (.ok 1) ∧
      (pollRecv (step s (.poll [])) [b]).1 = .pending ∧
      (step s (.poll [])).queue = [.dgram d] := by
  refine ⟨⟨true, [.dgram d], eagain⟩, rfl, rfl, ?_, ?_, ?_⟩
  · simp [pollRecv, recvmmsg, recvLoop, kRecv, result]
  · simp [step, pollRecv, recvmmsg, recvLoop, result]
  · simp [step, pollRecv, recvmmsg, recvLoop, result]

/-! ### Sending -/

/-- How many attempts succeed before one does not. -/
def goes : List Att → Nat
  | .ok :: s => goes s + 1
  | _ => 0

theorem kSend_sent (ds : List Dg) (s : List Att) :
    (kSend ds s).1 = ds.take (goes s) := by
  induction ds generalizing s with
  | nil => simp [kSend]
  | cons d ds ih =>
    match s with
    | [] => simp [kSend, goes]
    | .err e :: s => simp [kSend, goes]
    | .ok :: s => simp [kSend, goes, ih]

theorem kSend_script (ds : List Dg) (s : List Att) :
    (kSend ds s).2.2 = s.drop (min ds.length (goes s + 1)) := by
  induction ds generalizing s with
  | nil => simp [kSend]
  | cons d ds ih =>
    match s with
    | [] => simp [kSend]
    | .err e :: s => simp [kSend, goes]
    | .ok :: s => simp [kSend, goes, ih, Nat.add_min_add_right]

theorem goes_drop (s : List Att) (n : Nat) (h : n ≤ goes s) : goes (s.drop n) = goes s - n := by
  induction n generalizing s with
  | zero => rfl
  | succ n ih =>
    match s with
    | [] => simp [goes] at h
    | .err e :: s => simp [goes] at h
    | .ok :: s =>
      simp only [goes, List.drop_succ_cons] at h ⊢
      rw [ih s (by omega)]
      omega

theorem sendLoop_eq (fuel : Nat) (ds : List Dg) (errno : Nat) (s : List Att)
    (h : ds.length ≤ fuel) :
    (sendLoop fuel ds errno s).sent = ds.take (goes s) ∧
    (sendLoop fuel ds errno s).script = s.drop (min ds.length (goes s + 1)) := by
  induction fuel generalizing ds s with
  | zero =>
    have : ds = [] := List.eq_nil_of_length_eq_zero (by omega)
    subst this
    simp [sendLoop]
  | succ fuel ih =>
    by_cases hd : ds = []
    · subst hd; simp [sendLoop]
    · have hpos : 0 < ds.length := by
        cases ds with
        | nil => exact absurd rfl hd
        | cons _ _ => simp
      rw [sendLoop, if_neg hd]
      have h1 := kSend_sent (ds.take maxMmsg) s
      have h2 := kSend_script (ds.take maxMmsg) s
      have hlen : (ds.take maxMmsg).length = min 16 ds.length := by simp
      rw [hlen] at h2
      rcases hk : kSend (ds.take maxMmsg) s with ⟨sent, e, s'⟩
      rw [hk] at h1 h2
      simp only at h1 h2
      have hsl : sent.length = min (goes s) (min 16 ds.length) := by rw [h1]; simp
      split
      · rename_i heq
        injection heq with ha hb
        subst ha
        have hg : goes s = 0 := by simp at hsl; omega
        injection hb with hb hc
        subst hc
        subst h2
        refine ⟨by simp [hg], ?_⟩
        show s.drop _ = _
        rw [hg]
        congr 1
        omega
      · rename_i sent' e' s'' _ heq
        injection heq with ha hb
        injection hb with hb hc
        subst ha hb hc
        by_cases hn : sent.length < maxMmsg
        · rw [if_pos hn]
          simp only [maxMmsg] at hn
          rw [hsl] at hn
          constructor
          · show sent = _
            rw [h1, List.take_take]
            by_cases hg : goes s ≤ 16
            · rw [Nat.min_eq_left hg]
            · have hl : ds.length < 16 := by omega
              rw [List.take_of_length_le (i := min _ _) (by simp only [maxMmsg]; omega),
                List.take_of_length_le (by omega)]
          · show s' = _
            rw [h2]
            congr 1
            omega
        · rw [if_neg hn]
          simp only [maxMmsg] at hn
          have h16 : sent.length = 16 := by omega
          have hg : 16 ≤ goes s := by omega
          have hl : 16 ≤ ds.length := by omega
          have hs' : s' = s.drop 16 := by rw [h2]; congr 1; omega
          obtain ⟨i1, i2⟩ := ih (ds.drop maxMmsg) s' (by simp only [List.length_drop, maxMmsg]; omega)
          rw [hs', goes_drop s 16 hg] at i1 i2
          constructor
          · show sent ++ (sendLoop fuel (ds.drop maxMmsg) errno s').sent = _
            rw [hs', i1, h1, List.take_take]
            have : min (goes s) maxMmsg = 16 := by simp only [maxMmsg]; omega
            rw [this]
            have e1 : goes s = 16 + (goes s - 16) := by omega
            conv => rhs; rw [e1, List.take_add]
          · show (sendLoop fuel (ds.drop maxMmsg) errno s').script = _
            rw [hs', i2, List.drop_drop]
            congr 1
            simp only [List.length_drop, maxMmsg]
            omega

/-- **Sending a batch.** What is sent is the first datagrams, in order, up to the
first that the socket refuses; no attempt is made after that one; and the number
reported is the number sent. -/
theorem sent (ds : List Dg) (errno : Nat) (s : List Att) :
    (sendmmsg ds errno s).2.sent = ds.take (goes s) ∧
    (sendmmsg ds errno s).2.script = s.drop (min ds.length (goes s + 1)) ∧
    (0 < min ds.length (goes s) → (sendmmsg ds errno s).1 = .ok (min ds.length (goes s))) := by
  have := sendLoop_eq ds.length ds errno s (Nat.le_refl _)
  refine ⟨this.1, this.2, ?_⟩
  intro h
  simp only [sendmmsg, result]
  rw [this.1, List.length_take, if_neg (by omega)]
  congr 1
  omega

/-- The default loop sends the same datagrams with the same attempts, and reports
the same number. -/
theorem send_many (ds : List Dg) (errno : Nat) (s : List Att) :
    (sendMany 0 ds s).2.1 = (sendmmsg ds errno s).2.sent ∧
    (sendMany 0 ds s).2.2 = (sendmmsg ds errno s).2.script ∧
    (0 < min ds.length (goes s) →
      (sendMany 0 ds s).1 = .ready (.ok (min ds.length (goes s)))) := by
  have key : ∀ (ds : List Dg) (s : List Att) (n : Nat),
      (sendMany n ds s).2.1 = ds.take (goes s) ∧
      (sendMany n ds s).2.2 = s.drop (min ds.length (goes s + 1)) ∧
      (0 < n + min ds.length (goes s) →
        (sendMany n ds s).1 = .ready (.ok (n + min ds.length (goes s)))) := by
    intro ds
    induction ds with
    | nil => intro s n; simp [sendMany]
    | cons d ds ih =>
      intro s n
      match s with
      | [] => simp [sendMany, goes]; omega
      | .err e :: s => simp [sendMany, goes]; omega
      | .ok :: s =>
        obtain ⟨a, b, c⟩ := ih s (n + 1)
        refine ⟨by simp [sendMany, goes, a], by simp [sendMany, goes, b, Nat.add_min_add_right], ?_⟩
        intro _
        simp only [sendMany, goes, List.length_cons, Nat.add_min_add_right]
        rw [c (by omega)]
        congr 2
        omega
  obtain ⟨a, b, c⟩ := key ds s 0
  obtain ⟨a', b', _⟩ := sent ds errno s
  refine ⟨by rw [a, a'], by rw [b, b'], ?_⟩
  intro h
  rw [c (by omega), Nat.zero_add]

/-- When the first datagram is refused, the error is reported and no other is
attempted; when the socket blocks, that is reported. -/
theorem refused (d : Dg) (ds : List Dg) (errno e : Nat) (s : List Att) :
    (sendmmsg (d :: ds) errno (.err e :: s)).1 = .error e ∧
    (sendMany 0 (d :: ds) (.err e :: s)).1 = .ready (.error e) ∧
    (sendmmsg (d :: ds) errno []).1 = .error eagain ∧
    (sendMany 0 (d :: ds) []).1 = .pending := by
  simp [sendmmsg, sendLoop, kSend, result, sendMany]

/-! ### The default loops of the receiving side -/

/-- Pushing datagrams to a vector: the leading ones in order, up to the limit;
their number is reported. -/
theorem pushed (limit : Nat) (q : List Item) (h : 0 < min limit (lead q).length) :
    (recvDgrams 0 limit q).2.1 = (lead q).take limit ∧
    (recvDgrams 0 limit q).1 = .ready (.ok (min limit (lead q).length)) := by
  have key : ∀ (limit : Nat) (q : List Item) (i : Nat),
      (recvDgrams i limit q).2.1 = (lead q).take limit ∧
      (0 < i + min limit (lead q).length →
        (recvDgrams i limit q).1 = .ready (.ok (i + min limit (lead q).length))) := by
    intro limit
    induction limit with
    | zero => intro q i; simp [recvDgrams]
    | succ n ih =>
      intro q i
      match q with
      | [] => simp [recvDgrams, lead]; omega
      | .fault e :: q => simp [recvDgrams, lead]; omega
      | .dgram d :: q =>
        obtain ⟨a, b⟩ := ih q (i + 1)
        refine ⟨by simp [recvDgrams, lead, a], ?_⟩
        intro _
        simp only [recvDgrams, lead, List.length_cons, Nat.add_min_add_right]
        rw [b (by omega)]
        congr 2
        omega
  have := key limit q 0
  refine ⟨this.1, ?_⟩
  rw [this.2 (by omega), Nat.zero_add]

/-- With nothing to push, the pending error, or waiting. -/
theorem pushed_nothing (limit e : Nat) (q : List Item) :
    recvDgrams 0 (limit + 1) (.fault e :: q) = (.ready (.error e), [], q) ∧
    recvDgrams 0 (limit + 1) [] = (.pending, [], []) := by
  simp [recvDgrams]

/-- An error behind datagrams is taken and never told. -/
theorem pushed_false (d : Dg) (e : Nat) :
    recvDgrams 0 2 [.dgram d, .fault e] = (.ready (.ok 1), [d], []) := rfl

/-- The default loop over buffers does the same as the batch, if no error is
pending behind the datagrams. -/
theorem recv_many_partial (bufs : List RBuf) (errno : Nat) (q : List Item)
    (h : 0 < count bufs q) (hf : count bufs q < bufs.length → faultAt q (count bufs q) = none) :
    (recvMany 0 bufs q).1 = .ready (.ok (count bufs q)) ∧
    (recvMany 0 bufs q).2.1 = (recvmmsg bufs errno q).2.bufs ∧
    (recvMany 0 bufs q).2.2 = (recvmmsg bufs errno q).2.queue := by
  have key : ∀ (bufs : List RBuf) (q : List Item) (n : Nat), 0 < n + count bufs q →
      (count bufs q < bufs.length → faultAt q (count bufs q) = none) →
      recvMany n bufs q =
        (.ready (.ok (n + count bufs q)), fill bufs (lead q), q.drop (count bufs q)) := by
    intro bufs
    induction bufs with
    | nil => intro q n _ _; simp [recvMany, count, fill]
    | cons b bs ih =>
      intro q n hn hf
      match q with
      | [] =>
        have hc : count (b :: bs) [] = 0 := by simp [count, lead]
        rw [hc] at hn ⊢
        simp only [recvMany, poll1]
        rw [if_neg (by omega)]
        simp [fill, lead]
      | .fault e :: q =>
        have hc : count (b :: bs) (.fault e :: q) = 0 := by simp [count, lead]
        rw [hc] at hf
        have := hf (by simp)
        simp [faultAt] at this
      | .dgram d :: q =>
        have hc : count (b :: bs) (.dgram d :: q) = count bs q + 1 := by
          simp [count, lead, Nat.add_min_add_right]
        simp only [recvMany, poll1]
        rw [ih q (n + 1) (by omega) ?_]
        · simp only [fill, lead, hc, List.drop_succ_cons]
          congr 3
          omega
        · intro hlt
          rw [hc] at hf
          have := hf (by simp; omega)
          simpa [faultAt] using this
  have hk := key bufs q 0 (by omega) hf
  obtain ⟨a, b, _⟩ := received bufs errno q
  rw [hk, a, b]
  refine ⟨by simp, rfl, ?_⟩
  have : taken bufs q = 0 := by
    unfold taken
    rw [if_neg]
    rintro ⟨⟨_, h2⟩, h3⟩
    rw [hf h2] at h3
    simp at h3
  rw [this, Nat.add_zero]

/-- With an error behind them, the datagrams that were read are lost: they are
gone from the queue, and the caller is told of the error only. -/
theorem recv_many_false (d : Dg) (e : Nat) (b1 b2 : RBuf) :
    recvMany 0 [b1, b2] [.dgram d, .fault e] = (.ready (.error e), [b1.take d, b2], []) ∧
    (recvmmsg [b1, b2] 0 [.dgram d, .fault e]).1 = .ok 1 := by
  constructor
  · rfl
  · simp [recvmmsg, recvLoop, kRecv, result]

/-! ### Concrete cases -/

example : (recvmmsg [⟨[], 4⟩, ⟨[9], 1⟩, ⟨[], 4⟩] 0 [.dgram [1, 2], .dgram [3, 4]]).2.bufs =
    [⟨[1, 2], 2⟩, ⟨[9, 3], 0⟩, ⟨[], 4⟩] := by decide
example : (recvmmsg (List.replicate 20 ⟨[], 4⟩) 0
    ((List.range 18).map fun i => .dgram [i])).1 = .ok 18 := by decide
example : (sendmmsg ((List.range 40).map fun i => [i]) 0
    (List.replicate 33 .ok ++ [.err 90] ++ List.replicate 9 .ok)).1 = .ok 33 := by decide
example : recvMany 0 [⟨[], 4⟩, ⟨[], 4⟩] [.dgram [1], .fault 111] =
    (.ready (.error 111), [⟨[1], 3⟩, ⟨[], 4⟩], []) := by decide

end Verif.Props.C183
