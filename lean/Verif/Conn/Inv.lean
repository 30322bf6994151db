import Verif.Conn.Fields
import Verif.Conn.Rx

/-! The invariant of a connection, relative to the observer's books. -/

namespace Verif.Conn
open Verif Verif.Stream

/-- A queue changes by inserting and removing one stream. -/
inductive QMove (k : Key) (q : List Key) : List Key → Prop where
  | refl : QMove k q q
  | add {q' : List Key} : QMove k q q' → QMove k q (qadd k q')
  | del {q' : List Key} : QMove k q q' → QMove k q (qdel k.id q')

theorem QMove.ite {k : Key} {q a b : List Key} {p : Prop} [Decidable p] (ha : QMove k q a) (hb : QMove k q b) :
    QMove k q (if p then a else b) := by split <;> assumption

theorem QMove.ok {L L' : List (Nat × Stream)} {k : Key} {q q' : List Key} (h : QMove k q q')
    (hq : QOk L q → QOk L' q) (h0 : QOk L q) {s : Stream} (hg : Assoc.get L' k.id = some s)
    (hk : s.key = k) : QOk L' q' := by
  induction h with
  | refl => exact hq h0
  | add _ ih => exact ih.qadd hg hk
  | del _ ih => exact ih.qdel _

namespace Conn

/-- The invariant. `gone` are streams known to have been collected. -/
structure Inv (c : Conn) (h : Hist) (gone : List Nat) : Prop where
  shape : Shape c
  tx : Tx c.streams c.collected c.txData c.txBuffered c.frames c.reset h.acc h.ends
  rx : c.dead = false → Rx c.streams c.collected c.rxData c.fc c.shouldSendMaxData c.almostFull c.frames
    h.hi h.clean
  cap : c.factorNum ≤ c.factorDen → c.txCap + c.txData ≤ c.maxTxData
  den : 0 < c.factorDen
  lim : c.maxTxData = h.lim
  advData : c.dead = false → c.fc.maxData = h.advData
  adv : ∀ b, (c.counts b).localMax = h.adv b
  grant : ∀ b, (c.counts b).peerMax = h.grant b
  gone : ∀ id ∈ gone, ∃ s, Assoc.get c.collected id = some s
  peerB : c.peer.bidiLocal < 2 ^ 62 ∧ c.peer.bidiRemote < 2 ^ 62 ∧ c.peer.uni < 2 ^ 62
  hiB : ∀ ids : List Nat, ids.Nodup → (ids.map h.hi).sum ≤ h.advData
  init : ∀ b, (c.counts b).initial = h.first b
  fac : h.unit = true → c.factorNum ≤ c.factorDen

/-- The parts no stream operation touches. -/
structure Frame0 (c c' : Conn) : Prop where
  isServer : c'.isServer = c.isServer
  collected : c'.collected = c.collected
  bidi : c'.bidi = c.bidi
  uni : c'.uni = c.uni
  peer : c'.peer = c.peer
  maxTxData : c'.maxTxData = c.maxTxData
  factorNum : c'.factorNum = c.factorNum
  factorDen : c'.factorDen = c.factorDen

theorem Frame0.counts {c c' : Conn} (h : Frame0 c c') : c'.counts = c.counts := by
  funext b; unfold Conn.counts; rw [h.bidi, h.uni]

/-- The receiving parts stay. -/
structure SameRx (c c' : Conn) : Prop where
  rxData : c'.rxData = c.rxData
  fc : c'.fc = c.fc
  smd : c'.shouldSendMaxData = c.shouldSendMaxData
  almostFull : c'.almostFull = c.almostFull
  dead : c'.dead = c.dead

/-- The sending parts stay. -/
structure SameTx (c c' : Conn) : Prop where
  txData : c'.txData = c.txData
  txBuffered : c'.txBuffered = c.txBuffered
  txCap : c'.txCap = c.txCap
  reset : c'.reset = c.reset

variable {c c' : Conn} {h : Hist} {gone : List Nat}

theorem Inv.static (hI : Inv c h gone) {id : Nat} {s : Stream} (hg : c.get id = some s) :
    Static c.isServer id s := hI.shape.wf.static id s hg

theorem Shape.put (hS : Shape c) {id : Nat} {s s' : Stream} (hg : c.get id = some s) (f : Frame0 c c')
    (hst : c'.streams = Assoc.put c.streams id s')
    (hkey : s'.key = s.key) (hbidi : s'.bidi = s.bidi) (hloc : s'.local' = s.local')
    (q1 : QMove s.key c.flushable c'.flushable) (q2 : QMove s.key c.readable c'.readable)
    (q3 : QMove s.key c.writable c'.writable) : Shape c' := by
  have hs := hS.wf.static id s hg
  have hg' : Assoc.get (Assoc.put c.streams id s') s.key.id = some s' := by
    rw [hs.key, Assoc.get_put]; simp
  constructor
  · rw [f.isServer, f.collected, f.counts, hst]
    exact hS.wf.put hg ⟨by rw [hkey]; exact hs.key, by rw [hbidi]; exact hs.bidi, by rw [hloc]; exact hs.loc⟩
  · rw [hst]; exact q1.ok (fun q => q.put hg hkey) hS.flushable hg' hkey
  · rw [hst]; exact q2.ok (fun q => q.put hg hkey) hS.readable hg' hkey
  · rw [hst]; exact q3.ok (fun q => q.put hg hkey) hS.writable hg' hkey

/-- A change of the sending side of a stream. -/
theorem Inv.putSend (hI : Inv c h gone) {h' : Hist} {id : Nat} {s s' : Stream} (hg : c.get id = some s)
    (f : Frame0 c c') (r : SameRx c c')
    (hst : c'.streams = Assoc.put c.streams id s') (hrecv : s'.recv = s.recv)
    (hkey : s'.key = s.key) (hbidi : s'.bidi = s.bidi) (hloc : s'.local' = s.local')
    (q1 : QMove s.key c.flushable c'.flushable) (q2 : QMove s.key c.readable c'.readable)
    (q3 : QMove s.key c.writable c'.writable)
    (hs : SendOk s') (ha : c'.txData + s.send.off = c.txData + s'.send.off)
    (hb : c'.txBuffered + s.send.bufferedBytes = c.txBuffered + s'.send.bufferedBytes)
    (he : s.send.emitOff ≤ s'.send.emitOff)
    (hf : ∀ f ∈ c'.frames, f ∈ c.frames ∨ ∃ o n b, f = .stream id o n b ∧ o + n ≤ s'.send.emitOff)
    (hr : ∀ i code F, (i, (code, F)) ∈ c'.reset →
      (i, (code, F)) ∈ c.reset ∨ (i = id ∧ F ≤ s'.send.emitOff))
    (hcap : c.factorNum ≤ c.factorDen → c'.txCap + c'.txData ≤ c'.maxTxData)
    (hh : h' = { h with acc := upd h.acc id s'.send.off, ends := upd h.ends id s'.send.emitOff }) :
    Inv c' h' gone := by
  subst hh
  refine ⟨hI.shape.put hg f hst hkey hbidi hloc q1 q2 q3, ?_, ?_, ?_, ?_, ?_, ?_, ?_, ?_, ?_, ?_, ?_, ?_, ?_⟩
  · rw [hst, f.collected]
    refine hI.tx.put hg hs ha hb he ?_ ?_
    · intro f hf'
      rcases hf f hf' with h1 | ⟨o, n, b, rfl, h1⟩
      · exact .inl h1
      · right; simpa [FrameOk, upd] using h1
    · intro i code F hF
      rcases hr i code F hF with h1 | ⟨rfl, h1⟩
      · exact .inl h1
      · right; simpa [upd] using h1
  · intro hd
    rw [hst, f.collected, r.rxData, r.fc, r.smd, r.almostFull]
    refine (hI.rx (r.dead ▸ hd)).put_same hg hrecv hbidi hloc ?_ ?_
    · intro hm
      rcases hf _ hm with h1 | ⟨o, n, b, h1, -⟩
      · exact h1
      · simp at h1
    · intro i hm
      rcases hf _ hm with h1 | ⟨o, n, b, h1, -⟩
      · exact h1
      · simp at h1
  · rw [f.factorNum, f.factorDen]; exact hcap
  · rw [f.factorDen]; exact hI.den
  · rw [f.maxTxData]; exact hI.lim
  · rw [r.fc, r.dead]; exact hI.advData
  · rw [f.counts]; exact hI.adv
  · rw [f.counts]; exact hI.grant
  · rw [f.collected]; exact hI.gone
  · rw [f.peer]; exact hI.peerB
  · exact hI.hiB
  · rw [f.counts]; exact hI.init
  · rw [f.factorNum, f.factorDen]; exact hI.fac

/-- The same for changes of a stream's sending side that neither add nor drop data. -/
theorem Inv.putSend0 (hI : Inv c h gone) {id : Nat} {s s' : Stream} (hg : c.get id = some s)
    (f : Frame0 c c') (r : SameRx c c') (t : SameTx c c') (hfr : c'.frames = c.frames)
    (hst : c'.streams = Assoc.put c.streams id s') (hrecv : s'.recv = s.recv)
    (hkey : s'.key = s.key) (hbidi : s'.bidi = s.bidi) (hloc : s'.local' = s.local')
    (q1 : QMove s.key c.flushable c'.flushable) (q2 : QMove s.key c.readable c'.readable)
    (q3 : QMove s.key c.writable c'.writable)
    (hs : SendOk s') (ha : s'.send.off = s.send.off)
    (hb : s'.send.bufferedBytes = s.send.bufferedBytes) (he : s'.send.emitOff = s.send.emitOff) :
    Inv c' h gone := by
  have hA : s'.send.off = h.acc id := by rw [hI.tx.acc, ha]; exact (valAt_live (f := fun s => s.send.off) _ hg).symm
  have hE : s'.send.emitOff = h.ends id := by rw [hI.tx.ends, he]; exact (valAt_live (f := fun s => s.send.emitOff) _ hg).symm
  refine hI.putSend hg f r hst hrecv hkey hbidi hloc q1 q2 q3 hs (by rw [t.txData, ha])
    (by rw [t.txBuffered, hb]) (by rw [he]; exact Nat.le_refl _) ?_ ?_ ?_ ?_
  · rw [hfr]; exact fun f hf => .inl hf
  · rw [t.reset]; exact fun i code F hF => .inl hF
  · rw [t.txCap, t.txData, f.maxTxData]; exact hI.cap
  · rw [upd_eq_self hA, upd_eq_self hE]

/-- A change of the receiving side of a stream. -/
theorem Inv.putRecv (hI : Inv c h gone) {h' : Hist} {id : Nat} {s s' : Stream} (hg : c.get id = some s)
    (f : Frame0 c c') (t : SameTx c c')
    (hst : c'.streams = Assoc.put c.streams id s') (hsend : s'.send = s.send)
    (hkey : s'.key = s.key) (hbidi : s'.bidi = s.bidi) (hloc : s'.local' = s.local')
    (q1 : QMove s.key c.flushable c'.flushable) (q2 : QMove s.key c.readable c'.readable)
    (q3 : QMove s.key c.writable c'.writable)
    (hf : ∀ f ∈ c'.frames, f ∈ c.frames ∨ ∃ i, f = .maxStreamData i)
    {v : Nat} {clean' : Bool} (hh : h' = { h with hi := upd h.hi id v, clean := clean' })
    (hd : c'.dead = c.dead) (hv : c.dead = true → v = h.hi id)
    (alive : c.dead = false → RecvOk s' ∧ c'.fc.maxData = c.fc.maxData ∧
      h.hi id ≤ v ∧ c.rxData + v ≤ c'.rxData + h.hi id ∧ s'.recv.len ≤ v ∧
      c'.fc.consumed + held s' + c.rxData ≤ c.fc.consumed + held s + c'.rxData ∧
      (clean' = true → h.clean = true ∧
        c'.fc.consumed + held s' + c.rxData = c.fc.consumed + held s + c'.rxData) ∧
      c'.rxData ≤ c'.fc.maxData ∧ c'.fc.window ≤ c'.fc.maxWindow ∧
      ((c'.shouldSendMaxData = true ∨ .maxData ∈ c'.frames) → Raises c'.fc) ∧
      ((id ∈ c'.almostFull ∨ .maxStreamData id ∈ c'.frames) → Raises s'.recv.flowControl) ∧
      (∀ i ∈ c'.almostFull, i = id ∨ i ∈ c.almostFull) ∧
      (∀ i, .maxStreamData i ∈ c'.frames → i = id ∨ .maxStreamData i ∈ c.frames)) :
    Inv c' h' gone := by
  subst hh
  refine ⟨hI.shape.put hg f hst hkey hbidi hloc q1 q2 q3, ?_, ?_, ?_, ?_, ?_, ?_, ?_, ?_, ?_, ?_, ?_, ?_, ?_⟩
  · rw [hst, f.collected, t.txData, t.txBuffered, t.reset]
    refine hI.tx.put_same hg hsend hbidi hloc ?_
    intro f hf'
    rcases hf f hf' with h1 | ⟨i, rfl⟩
    · exact .inl h1
    · right; trivial
  · intro hd'
    rw [hd] at hd'
    obtain ⟨h1, -, h2, h3, h4, h5, h6, h7, h8, h9, h10, h11, h12⟩ := alive hd'
    rw [hst, f.collected]
    exact (hI.rx hd').put hg h1 h2 h3 h4 h5 h6 h7 h8 h9 h10 h11 h12
  · rw [f.factorNum, f.factorDen, t.txCap, t.txData, f.maxTxData]; exact hI.cap
  · rw [f.factorDen]; exact hI.den
  · rw [f.maxTxData]; exact hI.lim
  · intro hd'; rw [hd] at hd'; rw [(alive hd').2.1]; exact hI.advData hd'
  · rw [f.counts]; exact hI.adv
  · rw [f.counts]; exact hI.grant
  · rw [f.collected]; exact hI.gone
  · rw [f.peer]; exact hI.peerB
  · cases hd' : c.dead with
    | true =>
      simp only
      rw [hv hd', upd_self]; exact hI.hiB
    | false =>
      intro ids hn
      obtain ⟨h1, h0, h2, h3, h4, h5, h6, h7, h8, h9, h10, h11, h12⟩ := alive hd'
      have := ((hI.rx hd').put hg h1 h2 h3 h4 h5 h6 h7 h8 h9 h10 h11 h12).hs ids hn
      have h13 := hI.advData hd'
      simp only
      omega
  · rw [f.counts]; exact hI.init
  · rw [f.factorNum, f.factorDen]; exact hI.fac

/-- Nothing but queues, and queues of one stream only, changes. -/
theorem Inv.queues (hI : Inv c h gone) (f : Frame0 c c') (r : SameRx c c') (t : SameTx c c')
    (hfr : c'.frames = c.frames) (hst : c'.streams = c.streams)
    {id : Nat} {s : Stream} (hg : c.get id = some s)
    (q1 : QMove s.key c.flushable c'.flushable) (q2 : QMove s.key c.readable c'.readable)
    (q3 : QMove s.key c.writable c'.writable) : Inv c' h gone :=
  hI.putSend0 hg f r t hfr (s' := s) (hst.trans (Assoc.put_get_self hg).symm) rfl rfl rfl rfl q1 q2 q3
    (hI.tx.live id s hg) rfl rfl rfl

/-- Nothing that the invariant mentions changes, except that frames without meaning
for it may be added. -/
theorem Inv.other (hI : Inv c h gone) (f : Frame0 c c') (r : SameRx c c') (t : SameTx c c')
    (hfr : ∀ f ∈ c'.frames, f ∈ c.frames ∨ (∃ i k, f = .stop i k) ∨ (∃ b, f = .maxStreams b))
    (hst : c'.streams = c.streams)
    (q1 : c'.flushable = c.flushable) (q2 : c'.readable = c.readable)
    (q3 : c'.writable = c.writable) : Inv c' h gone := by
  refine ⟨⟨?_, ?_, ?_, ?_⟩, ?_, ?_, ?_, ?_, ?_, ?_, ?_, ?_, ?_, ?_, ?_, ?_, ?_⟩
  · rw [f.isServer, f.collected, f.counts, hst]; exact hI.shape.wf
  · rw [hst, q1]; exact hI.shape.flushable
  · rw [hst, q2]; exact hI.shape.readable
  · rw [hst, q3]; exact hI.shape.writable
  · rw [hst, f.collected, t.txData, t.txBuffered, t.reset]
    refine hI.tx.frames ?_ (fun i code F hF => .inl hF)
    intro f hf
    rcases hfr f hf with h1 | ⟨i, k, rfl⟩ | ⟨b, rfl⟩
    · exact .inl h1
    · right; trivial
    · right; trivial
  · intro hd
    rw [hst, f.collected, r.rxData, r.fc, r.smd, r.almostFull]
    refine (hI.rx (r.dead ▸ hd)).frames ?_ ?_
    · intro hm
      refine hm.imp (fun x => x) (fun hm => ?_)
      rcases hfr _ hm with h1 | ⟨i, k, h1⟩ | ⟨b, h1⟩
      · exact h1
      · simp at h1
      · simp at h1
    · intro i hm
      refine hm.imp (fun x => x) (fun hm => ?_)
      rcases hfr _ hm with h1 | ⟨i, k, h1⟩ | ⟨b, h1⟩
      · exact h1
      · simp at h1
      · simp at h1
  · rw [f.factorNum, f.factorDen, t.txCap, t.txData, f.maxTxData]; exact hI.cap
  · rw [f.factorDen]; exact hI.den
  · rw [f.maxTxData]; exact hI.lim
  · rw [r.fc, r.dead]; exact hI.advData
  · rw [f.counts]; exact hI.adv
  · rw [f.counts]; exact hI.grant
  · rw [f.collected]; exact hI.gone
  · rw [f.peer]; exact hI.peerB
  · exact hI.hiB
  · rw [f.counts]; exact hI.init
  · rw [f.factorNum, f.factorDen]; exact hI.fac

theorem Inv.dead (hI : Inv c h gone) : Inv { c with dead := true } h gone :=
  ⟨⟨hI.shape.wf, hI.shape.flushable, hI.shape.readable, hI.shape.writable⟩, hI.tx, fun h => by simp at h,
    hI.cap, hI.den, hI.lim, fun h => by simp at h, hI.adv, hI.grant, hI.gone, hI.peerB, hI.hiB, hI.init, hI.fac⟩

/-- A stream is completed and collected. -/
theorem Inv.collect (hI : Inv c h gone) {id : Nat} {s : Stream} (hg : c.get id = some s)
    (hc : s.isComplete = true) : Inv (c.collect id s) h gone := by
  have hs := hI.static hg
  have hk : ∀ b, (c.collect id s).counts b = if s.local' = false ∧ b = isBidi id then
      { c.counts b with localMaxNext := (c.counts b).localMaxNext + 1 } else c.counts b := by
    intro b; rw [collect_counts]
  have hk1 : ∀ b, ((c.collect id s).counts b).localMax = (c.counts b).localMax := by
    intro b; rw [hk]; split <;> rfl
  have hk2 : ∀ b, ((c.collect id s).counts b).peerMax = (c.counts b).peerMax := by
    intro b; rw [hk]; split <;> rfl
  have hk3 : ∀ b, ((c.collect id s).counts b).initial = (c.counts b).initial := by
    intro b; rw [hk]; split <;> rfl
  have w := hI.shape.wf
  refine ⟨⟨?_, ?_, ?_, ?_⟩, ?_, ?_, ?_, ?_, ?_, ?_, ?_, ?_, ?_, ?_, ?_, ?_, ?_⟩
  · simpa using w.collect hg hs hk
  · simpa using hI.shape.flushable.collect id
  · simpa using hI.shape.readable.collect id
  · simpa using hI.shape.writable.collect id
  · simpa using hI.tx.collect w.ndL w.disj hg hc
  · intro hd; simp at hd; simpa using (hI.rx hd).collect w.ndL hg hc
  · simpa using hI.cap
  · simpa using hI.den
  · simpa using hI.lim
  · simpa using hI.advData
  · intro b; rw [hk1]; exact hI.adv b
  · intro b; rw [hk2]; exact hI.grant b
  · intro i hi
    obtain ⟨x, hx⟩ := hI.gone i hi
    simp only [collect_collected]
    rw [Assoc.get_put]
    split
    · exact ⟨s, rfl⟩
    · exact ⟨x, hx⟩
  · simpa using hI.peerB
  · exact hI.hiB
  · intro b; rw [hk3]; exact hI.init b
  · simpa using hI.fac

/-- A stream is created. -/
theorem Inv.create (hI : Inv c h gone) {id : Nat} {s : Stream} (hc : Created c id c' s) :
    Inv c' h gone ∧ c'.get id = some s := by
  have w := hI.shape.wf
  have hst : Static c.isServer id s := by
    rw [hc.stream]; exact ⟨rfl, rfl, rfl⟩
  have hlim : ∀ b, (c'.counts b).localMax = (c.counts b).localMax ∧ (c'.counts b).peerMax = (c.counts b).peerMax := by
    intro b; rw [hc.counts]; split <;> exact ⟨rfl, rfl⟩
  have hini : ∀ b, (c'.counts b).initial = (c.counts b).initial := by
    intro b; rw [hc.counts]; split <;> rfl
  have hm : ∃ m, s.send = .new m ∧ m < 2 ^ 62 ∧ (s.bidi = false → s.local' = false → m = 0) := by
    have hp := hI.peerB
    refine ⟨(c.initialLimits (isLocal id c.isServer) id).2, by rw [hc.stream]; rfl, ?_, ?_⟩
    · unfold initialLimits
      split <;> simp <;> omega
    · rw [hst.bidi, hst.loc]; intro h1 h2
      unfold initialLimits; rw [h1, h2]
  obtain ⟨m, hm1, hm2, hm3⟩ := hm
  have hr : s.recv = .new (c.initialLimits (isLocal id c.isServer) id).1
      (c.initialLimits (isLocal id c.isServer) id).1 c.maxStreamWindow := by rw [hc.stream]; rfl
  refine ⟨⟨⟨?_, ?_, ?_, ?_⟩, ?_, ?_, ?_, ?_, ?_, ?_, ?_, ?_, ?_, ?_, hI.hiB, ?_, ?_⟩, ?_⟩
  · rw [hc.isServer', hc.collected', hc.streams]
    exact w.create hc.none hc.noneG hst hc.counts hc.limit
  · rw [hc.flushable', hc.streams]; exact hI.shape.flushable.create hc.none
  · rw [hc.readable', hc.streams]; exact hI.shape.readable.create hc.none
  · rw [hc.writable, hc.streams]
    split
    · exact (hI.shape.writable.create hc.none).qins (s := s)
        (by rw [hst.key, Assoc.get_put]; simp) rfl
        (by rw [hst.key]; exact hI.shape.writable.not_linked hc.none)
    · exact hI.shape.writable.create hc.none
  · rw [hc.collected', hc.streams, hc.txData', hc.txBuffered', hc.frames', hc.reset']
    exact hI.tx.create hc.none hc.noneG hm1 hm2 hm3
  · intro hd
    rw [hc.collected', hc.streams, hc.rxData', hc.fc', hc.shouldSendMaxData', hc.almostFull', hc.frames']
    exact (hI.rx (hc.dead' ▸ hd)).create hc.none hc.noneG hr
  · rw [hc.factorNum', hc.factorDen', hc.txCap', hc.txData', hc.maxTxData']; exact hI.cap
  · rw [hc.factorDen']; exact hI.den
  · rw [hc.maxTxData']; exact hI.lim
  · rw [hc.fc', hc.dead']; exact hI.advData
  · intro b; rw [(hlim b).1]; exact hI.adv b
  · intro b; rw [(hlim b).2]; exact hI.grant b
  · rw [hc.collected']; exact hI.gone
  · rw [hc.peer']; exact hI.peerB
  · intro b; rw [hini]; exact hI.init b
  · rw [hc.factorNum', hc.factorDen']; exact hI.fac
  · unfold get; rw [hc.streams, Assoc.get_put]; simp

/-- The invariant holds initially. -/
theorem Inv.start (g : Config) (hd : 0 < g.factorDen) : Inv (start g) (Hist.init g) [] := by
  refine ⟨⟨?_, ?_, ?_, ?_⟩, ?_, ?_, ?_, hd, rfl, ?_, ?_, ?_, by simp, ?_, ?_, ?_, ?_⟩
  · constructor <;> simp [Conn.start, Assoc.keys, Assoc.get, counts, credits]
  · exact ⟨by simp [Conn.start], ordered_nil⟩
  · exact ⟨by simp [Conn.start], ordered_nil⟩
  · exact ⟨by simp [Conn.start], ordered_nil⟩
  · constructor <;> simp [Conn.start, Assoc.get, Assoc.sum, Hist.init, valAt]
  · intro _
    constructor <;> simp [Conn.start, Assoc.get, Assoc.sum, Hist.init, FlowControl.new]
    · omega
    · intro ids _
      induction ids with
      | nil => rfl
      | cons a t ih => simp_all
  · simp [Conn.start]
  · simp [Conn.start, Hist.init, FlowControl.new]
  · intro b; cases b <;> simp [Conn.start, Hist.init, counts]
  · intro b; cases b <;> simp [Conn.start, Hist.init, counts]
  · simp [Conn.start]
  · intro ids _
    simp only [Hist.init]
    induction ids with
    | nil => simp
    | cons a t ih => simp_all
  · intro b; cases b <;> simp [Conn.start, Hist.init, counts]
  · simp [Conn.start, Hist.init]

end Conn
end Verif.Conn
