import Verif.Stream.SendHist
import Verif.Stream.RecvHist

/-!
Both ends of a stream with the network in between. The sending half of one endpoint and the
receiving half of the other are those of `SendSpec` and `RecvSpec`. The network keeps every
frame that was ever sent and may deliver it at any time and any number of times, or never;
a packet may be declared lost whether it was or not, but is acknowledged only if it was
processed.
-/

namespace Verif.Stream
open Verif
open Verif.Stream.SendBuf (SOp SEv SSt)
open Verif.Stream.RecvBuf (ROp REv RSt)

inductive POp where
  /-- the application writes -/
  | write (data : Bytes) (fin : Bool)
  | append (data : Bytes) (cap : Nat) (fin : Bool)
  /-- a packet with room for `n` bytes of stream data is sent -/
  | emit (n : Nat)
  /-- the sending application gives up -/
  | abandon
  /-- the packet with the `i`-th STREAM frame arrives -/
  | deliver (i : Nat)
  /-- its acknowledgement arrives -/
  | ack (i : Nat)
  /-- it is declared lost -/
  | lost (i : Nat)
  /-- the receiving application reads -/
  | read (cap : Nat)
  /-- the receiving application gives up -/
  | ignore
  /-- a packet of the receiver with room for MAX_STREAM_DATA or not -/
  | update (now rtt : Nat) (fits : Bool)
  /-- a packet with MAX_STREAM_DATA is declared lost -/
  | updateLost
  /-- the `j`-th MAX_STREAM_DATA frame arrives -/
  | grant (j : Nat)
  /-- a STOP_SENDING frame arrives -/
  | stop (code : Nat)
  /-- the `j`-th RESET_STREAM frame arrives -/
  | reset (j code : Nat)
  deriving DecidableEq, Repr

structure Pair where
  tx : SSt
  rx : RSt
  /-- the STREAM frames sent: offset, data, FIN -/
  frames : List (Nat × Bytes × Bool) := []
  /-- those the receiver has processed -/
  arrived : List Nat := []
  /-- the limits in the MAX_STREAM_DATA frames sent -/
  grants : List Nat := []
  /-- the final sizes in the RESET_STREAM frames sent -/
  resets : List Nat := []
  /-- what happened at the sender -/
  said : List SEv := []
  /-- what happened at the receiver -/
  seen : List REv := []
  deriving DecidableEq, Repr

namespace Pair

/-- The frames an event at the sender puts on the network. -/
def framesOf : SEv → List (Nat × Bytes × Bool)
  | .sent off bs fin => [(off, bs, fin)]
  | _ => []

def resetsOf : SEv → List Nat
  | .cut F _ => [F]
  | _ => []

def grantsOf : REv → List Nat
  | .advert m => [m]
  | _ => []

def txStep (p : Pair) (op : SOp) : Pair :=
  { p with tx := (SendBuf.step p.tx op).1
           said := p.said ++ [(SendBuf.step p.tx op).2]
           frames := p.frames ++ framesOf (SendBuf.step p.tx op).2
           resets := p.resets ++ resetsOf (SendBuf.step p.tx op).2 }

def rxStep (p : Pair) (op : ROp) : Pair :=
  { p with rx := (RecvBuf.step p.rx op).1
           seen := p.seen ++ [(RecvBuf.step p.rx op).2]
           grants := p.grants ++ grantsOf (RecvBuf.step p.rx op).2 }

/-- The packet was processed (lib.rs:3443-3463: if a frame is refused the packet is not
acknowledged). -/
def accepted : REv → Bool
  | .wrote .. => true
  | _ => false

def step (p : Pair) : POp → Pair
  | .write data fin => p.txStep (.write data fin)
  | .append data cap fin => p.txStep (.append data cap fin)
  | .emit n => p.txStep (.emit n)
  | .abandon => p.txStep .shutdown
  | .deliver i =>
    match p.frames[i]? with
    | none => p
    | some (off, data, fin) =>
      let q := p.rxStep (.write off data fin)
      if accepted (RecvBuf.step p.rx (.write off data fin)).2 then { q with arrived := q.arrived ++ [i] } else q
  | .ack i => if i ∈ p.arrived then p.txStep (.ack i) else p
  | .lost i => p.txStep (.lost i)
  | .read cap => p.rxStep (.read cap)
  | .ignore => p.rxStep .shutdown
  | .update now rtt fits => p.rxStep (.send now rtt fits)
  | .updateLost => p.rxStep .lost
  | .grant j =>
    match p.grants[j]? with
    | none => p
    -- a larger limit has no encoding (octets: C01)
    | some m => if m < 2 ^ 62 then p.txStep (.maxData m) else p
  -- sent only when the application gave up (lib.rs:6243-6257)
  | .stop code => if p.rx.r.drain then p.txStep (.stop code) else p
  | .reset j code =>
    match p.resets[j]? with
    | none => p
    | some F => p.rxStep (.reset code F)

def run (p : Pair) : List POp → Pair
  | [] => p
  | op :: l => (p.step op).run l

/-- Both ends of a fresh stream; the sender knows the initial limit from the transport
parameters. -/
def start (m w mw : Nat) : Pair := { tx := SendBuf.start m, rx := RecvBuf.start m w mw }

theorem run_append (p : Pair) (a b : List POp) : p.run (a ++ b) = (p.run a).run b := by
  induction a generalizing p with
  | nil => rfl
  | cons op l ih => exact ih (p.step op)

/-- How the sender changes in one step. -/
structure Moved (s s' : SendBuf) (W W' : Bytes) : Prop where
  more : ∃ w, W' = W ++ w
  emit : s.emitOff ≤ s'.emitOff
  fin : ∀ F, s.finOff = some F → F ≤ s.emitOff → s'.finOff = some F

theorem moved_refl (s : SendBuf) (W : Bytes) : Moved s s W W := ⟨⟨[], by simp⟩, Nat.le_refl _, fun _ h _ => h⟩

theorem took_moved {s s' : SendBuf} {W d : Bytes} {len n : Nat} {fin : Bool} (h : SendBuf.SInv s W) (T : SendBuf.Took s W d len fin s' n) :
    Moved s s' W (W ++ d.take n) := by
  refine ⟨⟨_, rfl⟩, by rw [T.fields]; exact Nat.le_refl _, fun F hF _ => ?_⟩
  obtain ⟨h1, h2, h3⟩ := T.dead (Or.inr (Or.inr (by rw [hF]; simp)))
  have := h.fin F hF
  rw [T.finOff, h1, h2, h3]
  simp [this]

theorem cut_moved {s s' : SendBuf} {W : Bytes} (h : SendBuf.SInv s W) (C : SendBuf.Cut s W s') : Moved s s' W W := by
  refine ⟨⟨[], by simp⟩, by rw [C.emitOff]; exact Nat.le_refl _, fun F hF hle => ?_⟩
  have := h.fin F hF
  have := h.emit
  rw [C.finOff]
  congr 1
  omega

theorem idle_moved (s : SendBuf) (es : List SEv) {e : SEv} (he : e.neutral) :
    Moved s s (SendBuf.written es) (SendBuf.written (es ++ [e])) := by
  refine ⟨⟨[], ?_⟩, Nat.le_refl _, fun _ h _ => h⟩
  cases e <;> simp_all [SendBuf.written, SEv.neutral]

open SendBuf in
theorem step_moved {m0 : Nat} {st : SSt} {es : List SEv} (h : SendBuf.HInv m0 st es) (op : SOp) :
    Moved st.s (SendBuf.step st op).1.s (written es) (written (es ++ [(SendBuf.step st op).2])) := by
  cases op with
  | write d fin =>
    simp only [SendBuf.step]
    rcases SendBuf.write_spec h.inv d fin with ⟨s', n, e, T⟩ | ⟨er, e, hne, -⟩
    · rw [e]
      have : written (es ++ [.offered d fin n]) = written es ++ d.take n := by simp [written]
      rw [this]
      exact took_moved h.inv T
    · rw [e]
      cases er <;> first | exact idle_moved _ _ trivial | exact absurd rfl hne
  | append d cap fin =>
    simp only [SendBuf.step]
    rcases SendBuf.appendBuf_spec h.inv d cap (if cap < d.length then false else fin) with ⟨s', n, r, e, T, -⟩ | ⟨er, e, hne, -⟩
    · rw [e]
      have T' := took_append T
      have : ∀ f, written (es ++ [.offered (d.take cap) f n]) = written es ++ (d.take cap).take n := by intro f; simp [written]
      rw [this]
      exact took_moved h.inv T'
    · rw [e]
      cases er <;> first | exact idle_moved _ _ trivial | exact absurd rfl hne
  | emit n =>
    simp only [SendBuf.step]
    split
    · exact idle_moved _ _ trivial
    · obtain ⟨s', bs, fin, e, S⟩ := SendBuf.emit_spec h.inv n
      rw [e]
      have : written (es ++ [.sent st.s.offFront bs fin]) = written es := by simp [written]
      rw [this]
      refine ⟨⟨[], by simp⟩, ?_, fun F hF _ => ?_⟩
      · rw [S.fields]; exact Nat.le_max_left _ _
      · rw [S.fields]; exact hF
  | ack i =>
    simp only [SendBuf.step]
    cases hf : st.frames[i]? with
    | none => exact idle_moved _ _ trivial
    | some f =>
      obtain ⟨off, len⟩ := f
      obtain ⟨s', n, e, A⟩ := SendBuf.ackAndDrop_spec h.inv (h.frames (off, len) (List.mem_of_getElem? hf)).1
      simp only [e]
      have : written (es ++ [.acked off len]) = written es := by simp [written]
      rw [this, A.fields]
      exact ⟨⟨[], by simp⟩, Nat.le_refl _, fun _ h _ => h⟩
  | lost i =>
    simp only [SendBuf.step]
    cases hf : st.frames[i]? with
    | none => exact idle_moved _ _ trivial
    | some f =>
      obtain ⟨off, len⟩ := f
      simp only
      split
      · exact idle_moved _ _ trivial
      · obtain ⟨s', n, e, R⟩ := SendBuf.retransmit_spec h.inv off len
        simp only [e]
        have : written (es ++ [.lost off len]) = written es := by simp [written]
        rw [this, R.fields]
        exact ⟨⟨[], by simp⟩, Nat.le_refl _, fun _ h _ => h⟩
  | maxData m =>
    simp only [SendBuf.step]
    have : written (es ++ [.limit m]) = written es := by simp [written]
    rw [this]
    exact ⟨⟨[], by simp⟩, Nat.le_refl _, fun _ h _ => h⟩
  | stop code =>
    simp only [SendBuf.step]
    rcases SendBuf.stop_spec h.inv code with ⟨-, e⟩ | ⟨-, s', e, C, -⟩
    · rw [e]; exact idle_moved _ _ trivial
    · rw [e]
      have : ∀ F u, written (es ++ [.cut F u]) = written es := by intro F u; simp [written]
      rw [this]
      exact cut_moved h.inv C
  | shutdown =>
    simp only [SendBuf.step]
    rcases SendBuf.shutdown_spec h.inv with ⟨-, e⟩ | ⟨-, s', e, C, -⟩
    · rw [e]; exact idle_moved _ _ trivial
    · rw [e]
      have : ∀ F u, written (es ++ [.cut F u]) = written es := by intro F u; simp [written]
      rw [this]
      exact cut_moved h.inv C

/-- A STREAM frame is what the sender wrote and knows. -/
structure Frames (s : SendBuf) (W : Bytes) (f : Nat × Bytes × Bool) : Prop where
  bytes : ∀ j, j < f.2.1.length → f.2.1[j]? = W[f.1 + j]?
  bound : f.1 + f.2.1.length ≤ s.emitOff
  fin : f.2.2 = true → s.finOff = some (f.1 + f.2.1.length)

theorem Frames.moved {s s' : SendBuf} {W W' : Bytes} {f : Nat × Bytes × Bool} (h : Frames s W f) (hs : SendBuf.SInv s W) (hm : Moved s s' W W') :
    Frames s' W' f := by
  refine ⟨fun j hj => ?_, Nat.le_trans h.bound hm.emit, fun hf => hm.fin _ (h.fin hf) h.bound⟩
  obtain ⟨w, rfl⟩ := hm.more
  have := h.bound
  have := hs.emit
  have := hs.wlen
  rw [h.bytes j hj, List.getElem?_append_left (by omega)]

/-- What holds in every state of the two. -/
structure PInv (m : Nat) (p : Pair) : Prop where
  tx : SendBuf.HInv m p.tx p.said
  rx : RecvBuf.HInv m p.rx p.seen
  alive : p.rx.dead = false
  calm : ∀ e ∈ p.seen, e.isReject = false ∧ e ≠ .panic
  same : p.frames.map (fun f => (f.1, f.2.1.length)) = p.tx.frames
  sent : ∀ f, f ∈ p.frames ↔ SEv.sent f.1 f.2.1 f.2.2 ∈ p.said
  frames : ∀ f ∈ p.frames, Frames p.tx.s (SendBuf.written p.said) f
  resets : ∀ F ∈ p.resets, p.tx.s.finOff = some F ∧ F = p.tx.s.emitOff
  fin : ∀ F, RecvBuf.finalSize p.seen = some F → p.tx.s.finOff = some F ∧ F = p.tx.s.emitOff
  len : RecvBuf.highest p.seen ≤ p.tx.s.emitOff
  lim : p.tx.s.maxData ≤ p.rx.r.maxData
  grants : ∀ g ∈ p.grants, g ≤ p.rx.r.maxData
  arrived : ∀ i ∈ p.arrived, ∃ off data fin c b, p.frames[i]? = some (off, data, fin) ∧ REv.wrote off data fin c b ∈ p.seen
  wrote : ∀ off data fin c b, REv.wrote off data fin c b ∈ p.seen → (off, data, fin) ∈ p.frames
  acked : ∀ off len, SEv.acked off len ∈ p.said → ∃ i data fin, i ∈ p.arrived ∧ p.frames[i]? = some (off, data, fin) ∧ data.length = len

/-- What one step of the sender puts on the network. -/
structure Says (st : SSt) (op : SOp) (es : List SEv) (st' : SSt) (e : SEv) : Prop where
  frames : st'.frames = st.frames ++ (framesOf e).map (fun f => (f.1, f.2.1.length))
  sent : ∀ f ∈ framesOf e, Frames st'.s (SendBuf.written es) f
  cut : ∀ F ∈ resetsOf e, st'.s.finOff = some F ∧ F = st'.s.emitOff
  max : st'.s.maxData = st.s.maxData ∨ ∃ m, op = .maxData m ∧ st'.s.maxData = Nat.max st.s.maxData m
  acked : ∀ off len, e = .acked off len → ∃ i, op = .ack i ∧ st.frames[i]? = some (off, len)

theorem idle_says (st : SSt) (op : SOp) (es : List SEv) {e : SEv} (he : e.neutral) : Says st op es st e := by
  constructor <;> cases e <;> simp_all [SEv.neutral, framesOf, resetsOf]

open SendBuf in
theorem step_says {m0 : Nat} {st : SSt} {es : List SEv} (h : SendBuf.HInv m0 st es) (op : SOp) :
    Says st op es (SendBuf.step st op).1 (SendBuf.step st op).2 := by
  cases op with
  | write d fin =>
    simp only [SendBuf.step]
    rcases SendBuf.write_spec h.inv d fin with ⟨s', n, e, T⟩ | ⟨er, e, hne, -⟩
    · rw [e]
      exact ⟨by simp [framesOf], by simp [framesOf], by simp [resetsOf], .inl (by rw [T.fields]), by simp⟩
    · rw [e]
      cases er <;> first | exact idle_says _ _ _ trivial | exact absurd rfl hne
  | append d cap fin =>
    simp only [SendBuf.step]
    rcases SendBuf.appendBuf_spec h.inv d cap (if cap < d.length then false else fin) with ⟨s', n, r, e, T, -⟩ | ⟨er, e, hne, -⟩
    · rw [e]
      exact ⟨by simp [framesOf], by simp [framesOf], by simp [resetsOf], .inl (by rw [T.fields]), by simp⟩
    · rw [e]
      cases er <;> first | exact idle_says _ _ _ trivial | exact absurd rfl hne
  | emit n =>
    simp only [SendBuf.step]
    split
    · exact idle_says _ _ _ trivial
    · obtain ⟨s', bs, fin, e, S⟩ := SendBuf.emit_spec h.inv n
      rw [e]
      refine ⟨by simp [framesOf], ?_, by simp [resetsOf], .inl (by rw [S.fields]), by simp⟩
      intro f hf
      simp only [framesOf, List.mem_singleton] at hf
      subst hf
      refine ⟨S.bytes, ?_, ?_⟩
      · simp only; rw [S.fields]; exact Nat.le_max_right _ _
      · intro hfin
        have := S.finFlag
        simp only at hfin
        rw [hfin] at this
        simp only
        rw [S.fields]
        simpa using this.symm
  | ack i =>
    simp only [SendBuf.step]
    cases hf : st.frames[i]? with
    | none => exact idle_says _ _ _ trivial
    | some f =>
      obtain ⟨off, len⟩ := f
      obtain ⟨s', n, e, A⟩ := SendBuf.ackAndDrop_spec h.inv (h.frames (off, len) (List.mem_of_getElem? hf)).1
      simp only [e]
      refine ⟨by simp [framesOf], by simp [framesOf], by simp [resetsOf], .inl (by rw [A.fields]), ?_⟩
      rintro a b hab
      simp only [SEv.acked.injEq] at hab
      exact ⟨i, rfl, by rw [hf]; simp [hab]⟩
  | lost i =>
    simp only [SendBuf.step]
    cases hf : st.frames[i]? with
    | none => exact idle_says _ _ _ trivial
    | some f =>
      obtain ⟨off, len⟩ := f
      simp only
      split
      · exact idle_says _ _ _ trivial
      · obtain ⟨s', n, e, R⟩ := SendBuf.retransmit_spec h.inv off len
        simp only [e]
        exact ⟨by simp [framesOf], by simp [framesOf], by simp [resetsOf], .inl (by rw [R.fields]), by simp⟩
  | maxData m =>
    simp only [SendBuf.step]
    exact ⟨by simp [framesOf], by simp [framesOf], by simp [resetsOf], .inr ⟨m, rfl, rfl⟩, by simp⟩
  | stop code =>
    simp only [SendBuf.step]
    rcases SendBuf.stop_spec h.inv code with ⟨-, e⟩ | ⟨-, s', e, C, -⟩
    · rw [e]; exact idle_says _ _ _ trivial
    · rw [e]
      refine ⟨by simp [framesOf], by simp [framesOf], ?_, .inl C.maxData, by simp⟩
      simp only [resetsOf, List.mem_singleton, forall_eq]
      exact ⟨C.finOff, C.emitOff.symm⟩
  | shutdown =>
    simp only [SendBuf.step]
    rcases SendBuf.shutdown_spec h.inv with ⟨-, e⟩ | ⟨-, s', e, C, -⟩
    · rw [e]; exact idle_says _ _ _ trivial
    · rw [e]
      refine ⟨by simp [framesOf], by simp [framesOf], ?_, .inl C.maxData, by simp⟩
      simp only [resetsOf, List.mem_singleton, forall_eq]
      exact ⟨C.finOff, C.emitOff.symm⟩

theorem mem_framesOf {f : Nat × Bytes × Bool} {e : SEv} : f ∈ framesOf e ↔ e = .sent f.1 f.2.1 f.2.2 := by
  obtain ⟨a, b, c⟩ := f
  cases e <;> simp [framesOf, eq_comm]

theorem start_pinv {m w mw : Nat} (hm : m < 2 ^ 62) : PInv m (start m w mw) where
  tx := SendBuf.hinv_start hm
  rx := RecvBuf.hinv_start m w mw
  alive := rfl
  calm := by simp [start]
  same := rfl
  sent := by simp [start]
  frames := by simp [start]
  resets := by simp [start]
  fin := by simp [start, RecvBuf.finalSize]
  len := by simp [start, RecvBuf.highest]
  lim := by simp [start, SendBuf.start, SendBuf.new, RecvBuf.start, RecvBuf.new, FlowControl.new, RecvBuf.maxData]
  grants := by simp [start]
  arrived := by simp [start]
  wrote := by simp [start]
  acked := by simp [start]

theorem tx_pinv {m : Nat} {p : Pair} (h : PInv m p) {op : SOp} (hok : op.Ok) (hack : ∀ i, op = .ack i → i ∈ p.arrived)
    (hmax : ∀ g, op = .maxData g → g ≤ p.rx.r.maxData) : PInv m (p.txStep op) := by
  have hH := SendBuf.step_hinv h.tx hok
  have hM := step_moved h.tx op
  have hS := step_says h.tx op
  have stay : ∀ F, p.tx.s.finOff = some F ∧ F = p.tx.s.emitOff →
      (SendBuf.step p.tx op).1.s.finOff = some F ∧ F = (SendBuf.step p.tx op).1.s.emitOff := by
    rintro F ⟨h1, h2⟩
    have h3 := hM.fin F h1 (by omega)
    have := hH.inv.fin F h3
    have := hH.inv.emit
    have := hM.emit
    exact ⟨h3, by omega⟩
  refine ⟨hH, h.rx, h.alive, h.calm, ?_, ?_, ?_, ?_, fun F hF => stay F (h.fin F hF), Nat.le_trans h.len hM.emit, ?_,
    h.grants, ?_, ?_, ?_⟩
  · simp only [txStep, List.map_append, h.same, hS.frames]
  · intro f
    simp only [txStep, List.mem_append, List.mem_singleton, h.sent f, mem_framesOf, eq_comm]
  · intro f hf
    simp only [txStep, List.mem_append] at hf
    rcases hf with hf | hf
    · exact (h.frames f hf).moved h.tx.inv hM
    · have := hS.sent f hf
      refine ⟨fun j hj => ?_, this.bound, this.fin⟩
      obtain ⟨w, hw⟩ := hM.more
      have h1 := this.bytes j hj
      rw [h1]
      simp only [txStep, hw]
      have : f.1 + j < (SendBuf.written p.said).length := by
        rw [List.getElem?_eq_getElem hj] at h1
        exact (List.getElem?_eq_some_iff.mp h1.symm).1
      rw [List.getElem?_append_left this]
  · intro F hF
    simp only [txStep, List.mem_append] at hF
    rcases hF with hF | hF
    · exact stay F (h.resets F hF)
    · exact hS.cut F hF
  · have := h.lim
    simp only [txStep]
    rcases hS.max with h1 | ⟨g, h1, h2⟩
    · omega
    · have h3 := hmax g h1
      rw [h2]
      exact Nat.max_le.mpr ⟨this, h3⟩
  · intro i hi
    obtain ⟨off, data, fin, c, b, h1, h2⟩ := h.arrived i hi
    refine ⟨off, data, fin, c, b, ?_, h2⟩
    simp only [txStep]
    rw [List.getElem?_append_left (List.getElem?_eq_some_iff.mp h1).1, h1]
  · intro off data fin c b hb
    simp only [txStep, List.mem_append]
    exact .inl (h.wrote off data fin c b hb)
  · intro off len hl
    simp only [txStep, List.mem_append, List.mem_singleton] at hl
    rcases hl with hl | hl
    · obtain ⟨i, data, fin, h1, h2, h3⟩ := h.acked off len hl
      refine ⟨i, data, fin, h1, ?_, h3⟩
      simp only [txStep]
      rw [List.getElem?_append_left (List.getElem?_eq_some_iff.mp h2).1, h2]
    · obtain ⟨i, hi, hf⟩ := hS.acked off len hl.symm
      have hin := hack i hi
      obtain ⟨o, data, fin, c, b, h1, h2⟩ := h.arrived i hin
      rw [← h.same, List.getElem?_map, h1] at hf
      simp only [Option.map_some, Option.some.injEq, Prod.mk.injEq] at hf
      refine ⟨i, data, fin, hin, ?_, hf.2⟩
      simp only [txStep]
      rw [List.getElem?_append_left (List.getElem?_eq_some_iff.mp h1).1, h1, hf.1]

/-- An advertised limit is never below the one in force. -/
theorem advert_ge {m0 : Nat} {s : RSt} {es : List REv} (h : RecvBuf.HInv m0 s es) {op : ROp} {n : Nat}
    (he : (RecvBuf.step s op).2 = .advert n) : s.r.maxData ≤ n := by
  cases op with
  | send now rtt fits =>
    simp only [RecvBuf.step] at he
    split at he
    · cases he
    · split at he
      · rename_i hp
        have hpd := h.pend hp
        have hwin := h.win
        split at he
        · cases he
        · rename_i af haf
          cases fits with
          | false => simp at he
          | true =>
            simp only [if_true, REv.advert.injEq] at he
            simp only [FlowControl.maxDataNext] at hpd he
            split at he
            · simp only [RecvBuf.autotuneWindow, FlowControl.autotuneWindow] at he
              split at he
              · split at he <;> try simp only [FlowControl.setWindow] at he
                all_goals omega
              · omega
            · omega
      · cases he
  | write off data fin =>
    simp only [RecvBuf.step] at he
    split at he
    · cases he
    · split at he <;> cases he
  | read cap =>
    simp only [RecvBuf.step] at he
    split at he
    · split at he <;> cases he
    · cases he
  | reset code F =>
    simp only [RecvBuf.step] at he
    split at he
    · cases he
    · split at he <;> cases he
  | shutdown =>
    simp only [RecvBuf.step] at he
    split at he <;> cases he
  | lost =>
    simp only [RecvBuf.step] at he
    split at he
    · cases he
    · split at he <;> cases he

theorem mem_grantsOf {g : Nat} {e : REv} : g ∈ grantsOf e ↔ e = .advert g := by
  cases e <;> simp [grantsOf, eq_comm]

theorem rx_pinv {m : Nat} {p : Pair} (h : PInv m p) {op : ROp} (hrej : (RecvBuf.step p.rx op).2.isReject = false)
    (hfin : ∀ F, (RecvBuf.step p.rx op).2.final = some F → p.tx.s.finOff = some F ∧ F = p.tx.s.emitOff)
    (hreach : (RecvBuf.step p.rx op).2.reach ≤ p.tx.s.emitOff)
    (hw : ∀ off data fin c b, (RecvBuf.step p.rx op).2 = .wrote off data fin c b → (off, data, fin) ∈ p.frames) :
    PInv m (p.rxStep op) := by
  obtain ⟨hnp, hor, hdead⟩ := RecvBuf.step_hinv h.rx op
  have hal := h.alive
  have hd : (RecvBuf.step p.rx op).1.dead = false := by
    cases hx : (RecvBuf.step p.rx op).1.dead with
    | false => rfl
    | true => have := hdead.mp hx; simp [hal, hrej] at this
  have hH : RecvBuf.HInv m (RecvBuf.step p.rx op).1 (p.seen ++ [(RecvBuf.step p.rx op).2]) := by
    rcases hor with hH | hB
    · exact hH
    · have := hB.dead; simp [hd] at this
  have hmono : p.rx.r.maxData ≤ (RecvBuf.step p.rx op).1.r.maxData := by
    have h1 := hH.lim
    have h2 := h.rx.lim
    rw [RecvBuf.limit_append, ← h2] at h1
    rw [h1]
    cases he : (RecvBuf.step p.rx op).2 with
    | advert n => exact advert_ge h.rx he
    | _ => exact Nat.le_refl _
  refine ⟨h.tx, hH, hd, ?_, h.same, h.sent, h.frames, h.resets, ?_, ?_, Nat.le_trans h.lim hmono, ?_, ?_, ?_, h.acked⟩
  · intro e he
    simp only [rxStep, List.mem_append, List.mem_singleton] at he
    rcases he with he | rfl
    · exact h.calm e he
    · exact ⟨hrej, hnp⟩
  · intro F hF
    simp only [rxStep, RecvBuf.finalSize_append, RecvBuf.finalSize, Option.or_none] at hF
    cases hs : RecvBuf.finalSize p.seen with
    | some G =>
      rw [hs] at hF
      simp only [Option.some_or, Option.some.injEq] at hF
      exact hF ▸ h.fin G hs
    | none =>
      rw [hs] at hF
      simp only [Option.none_or] at hF
      exact hfin F hF
  · have := h.len
    simp only [rxStep, RecvBuf.highest_append, RecvBuf.highest]
    omega
  · intro g hg
    simp only [rxStep, List.mem_append, mem_grantsOf] at hg
    simp only [rxStep]
    rcases hg with hg | hg
    · exact Nat.le_trans (h.grants g hg) hmono
    · have h1 := hH.lim
      rw [hg, RecvBuf.limit_append] at h1
      rw [h1]
      exact Nat.le_refl _
  · intro i hi
    obtain ⟨off, data, fin, c, b, h1, h2⟩ := h.arrived i hi
    exact ⟨off, data, fin, c, b, h1, by simp [rxStep, h2]⟩
  · intro off data fin c b hb
    simp only [rxStep, List.mem_append, List.mem_singleton] at hb
    rcases hb with hb | hb
    · exact h.wrote _ _ _ _ _ hb
    · exact hw _ _ _ _ _ hb.symm

/-- Every frame the sender sent is accepted. -/
theorem write_ok {m : Nat} {p : Pair} (h : PInv m p) {off : Nat} {data : Bytes} {fin : Bool} (hf : (off, data, fin) ∈ p.frames) :
    ∃ c b, (RecvBuf.step p.rx (.write off data fin)).2 = .wrote off data fin c b := by
  have hF := h.frames _ hf
  have hb := hF.bound
  have hfin := hF.fin
  simp only at hb hfin
  have h1 := h.tx.inv.emit
  have h2 := h.tx.inv.max
  have h3 := h.lim
  have h4 := h.len
  rw [← h.rx.len] at h4
  have hmo : (RangeBuf.mk' data off fin).maxOff = off + data.length := by simp [RangeBuf.maxOff]
  rcases RecvBuf.write_spec h.rx.inv (RangeBuf.wf_mk' data off fin) (by rfl) with ⟨hc, -⟩ | ⟨-, hc, -⟩ | ⟨-, -, r', hw, -⟩
  · rw [hmo] at hc; omega
  · exfalso
    simp only [RecvBuf.BadFinal, hmo, RangeBuf.fin_mk'] at hc
    rcases hc with ⟨F, hF1, hF2⟩ | ⟨hc1, hc2⟩
    · rw [h.rx.finOff] at hF1
      obtain ⟨g1, g2⟩ := h.fin F hF1
      rcases hF2 with hF2 | ⟨hF2, hF3⟩
      · omega
      · have := hfin hF2
        rw [g1, Option.some.injEq] at this
        exact hF3 this
    · have := h.tx.inv.fin _ (hfin hc1)
      omega
  · exact ⟨_, _, by simp [RecvBuf.step, h.alive, hw]; exact ⟨rfl, rfl⟩⟩

/-- Every reset the sender sent is accepted. -/
theorem reset_ok {m : Nat} {p : Pair} (h : PInv m p) {F code : Nat} (hf : F ∈ p.resets) :
    ∃ c b, (RecvBuf.step p.rx (.reset code F)).2 = .resetOk code F c b := by
  obtain ⟨h1, h2⟩ := h.resets F hf
  have h3 := h.tx.inv.emit
  have h4 := h.tx.inv.max
  have h5 := h.lim
  have h6 := h.len
  rw [← h.rx.len] at h6
  rcases RecvBuf.reset_spec h.rx.inv code F with ⟨hc, -⟩ | ⟨-, -, hc, -⟩ | ⟨-, -, -, ret, r', hw, -⟩
  · exfalso
    rcases hc with ⟨G, hG, hne⟩ | hc
    · rw [h.rx.finOff] at hG
      obtain ⟨g1, g2⟩ := h.fin G hG
      omega
    · omega
  · omega
  · exact ⟨_, _, by simp [RecvBuf.step, h.alive, hw]; exact ⟨rfl, rfl⟩⟩

/-- Steps that take nothing from the network. -/
theorem rx_quiet {m : Nat} {p : Pair} (h : PInv m p) {op : ROp} (h1 : ∀ a b c, op ≠ .write a b c) (h2 : ∀ a b, op ≠ .reset a b) :
    PInv m (p.rxStep op) := by
  have key : (RecvBuf.step p.rx op).2.isReject = false ∧ (RecvBuf.step p.rx op).2.final = none ∧
      (RecvBuf.step p.rx op).2.reach = 0 ∧ ∀ off data fin c b, (RecvBuf.step p.rx op).2 ≠ .wrote off data fin c b := by
    cases op with
    | write a b c => exact absurd rfl (h1 a b c)
    | reset a b => exact absurd rfl (h2 a b)
    | read cap =>
      simp only [RecvBuf.step]
      split
      · split <;> simp [REv.isReject, REv.final, REv.reach]
      · simp [REv.isReject, REv.final, REv.reach]
    | shutdown =>
      simp only [RecvBuf.step]
      split <;> simp [REv.isReject, REv.final, REv.reach]
    | send now rtt fits =>
      simp only [RecvBuf.step]
      split
      · simp [REv.isReject, REv.final, REv.reach]
      · split
        · split
          · simp [REv.isReject, REv.final, REv.reach]
          · cases fits <;> simp [REv.isReject, REv.final, REv.reach]
        · simp [REv.isReject, REv.final, REv.reach]
    | lost =>
      simp only [RecvBuf.step]
      split
      · simp [REv.isReject, REv.final, REv.reach]
      · split <;> simp [REv.isReject, REv.final, REv.reach]
  obtain ⟨k1, k2, k3, k4⟩ := key
  exact rx_pinv h k1 (by rw [k2]; simp) (by omega) (fun _ _ _ _ _ he => absurd he (k4 _ _ _ _ _))

theorem step_pinv {m : Nat} {p : Pair} (h : PInv m p) (op : POp) : PInv m (p.step op) := by
  cases op with
  | write data fin => exact tx_pinv h trivial (by simp) (by simp)
  | append data cap fin => exact tx_pinv h trivial (by simp) (by simp)
  | emit n => exact tx_pinv h trivial (by simp) (by simp)
  | abandon => exact tx_pinv h trivial (by simp) (by simp)
  | lost i => exact tx_pinv h trivial (by simp) (by simp)
  | ack i =>
    simp only [step]
    split
    · rename_i hi
      refine tx_pinv h trivial ?_ (by simp)
      rintro j hj
      cases hj
      exact hi
    · exact h
  | grant j =>
    simp only [step]
    split
    · exact h
    · rename_i g hg
      split
      · rename_i hlt
        refine tx_pinv h hlt (by simp) ?_
        rintro k hk
        cases hk
        exact h.grants g (List.mem_of_getElem? hg)
      · exact h
  | stop code =>
    simp only [step]
    split
    · exact tx_pinv h trivial (by simp) (by simp)
    · exact h
  | read cap => exact rx_quiet h (by simp) (by simp)
  | ignore => exact rx_quiet h (by simp) (by simp)
  | update now rtt fits => exact rx_quiet h (by simp) (by simp)
  | updateLost => exact rx_quiet h (by simp) (by simp)
  | reset j code =>
    simp only [step]
    split
    · exact h
    · rename_i F hF
      have hm := List.mem_of_getElem? hF
      obtain ⟨c, b, he⟩ := reset_ok h (code := code) hm
      obtain ⟨g1, g2⟩ := h.resets F hm
      refine rx_pinv h (by rw [he]; rfl) ?_ ?_ ?_
      · rw [he]
        intro G hG
        simp only [REv.final, Option.some.injEq] at hG
        exact hG ▸ ⟨g1, g2⟩
      · rw [he]; simp only [REv.reach]; omega
      · rw [he]; simp
  | deliver i =>
    simp only [step]
    split
    · exact h
    · rename_i off data fin hf
      have hm := List.mem_of_getElem? hf
      obtain ⟨c, b, he⟩ := write_ok h hm
      have hF := h.frames _ hm
      have hb := hF.bound
      have hfin := hF.fin
      simp only at hb hfin
      have hP : PInv m (p.rxStep (.write off data fin)) := by
        refine rx_pinv h (by rw [he]; rfl) ?_ ?_ ?_
        · rw [he]
          intro G hG
          cases fin with
          | false => simp [REv.final] at hG
          | true =>
            simp only [REv.final, Option.some.injEq] at hG
            have h1 := hfin rfl
            have := h.tx.inv.fin _ h1
            have := h.tx.inv.emit
            exact ⟨by rw [h1, hG], by omega⟩
        · rw [he]
          simp only [REv.reach]
          split <;> omega
        · rw [he]
          intro a b' c' d e' hq
          cases hq
          exact hm
      rw [if_pos (by rw [he]; rfl)]
      refine ⟨hP.tx, hP.rx, hP.alive, hP.calm, hP.same, hP.sent, hP.frames, hP.resets, hP.fin, hP.len, hP.lim, hP.grants,
        ?_, hP.wrote, ?_⟩
      · intro k hk
        simp only [List.mem_append, List.mem_singleton] at hk
        rcases hk with hk | rfl
        · exact hP.arrived k hk
        · exact ⟨off, data, fin, c, b, hf, by simp [rxStep, he]⟩
      · intro a l hl
        obtain ⟨k, d, f, h1, h2, h3⟩ := hP.acked a l hl
        exact ⟨k, d, f, by simp [h1], h2, h3⟩

theorem run_pinv {m : Nat} {p : Pair} (h : PInv m p) (ops : List POp) : PInv m (p.run ops) := by
  induction ops generalizing p with
  | nil => exact h
  | cons op l ih => exact ih (step_pinv h op)

/-- Everything reachable. -/
theorem reach_pinv {m : Nat} (hm : m < 2 ^ 62) (w mw : Nat) (ops : List POp) : PInv m ((start m w mw).run ops) :=
  run_pinv (start_pinv hm) ops

end Pair
end Verif.Stream
