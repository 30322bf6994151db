import Verif.Tq.RouterInv

/-! # C152 — datagrams reach the connection they are for -/

namespace Verif.Props.C152
open Verif Verif.Tq

/-- A datagram whose first packet has this destination connection ID, to a reader that takes the IDs in packets with a short header to be
of 20 bytes. -/
def For (buf x : Bytes) : Prop := ∃ hdr, (Packet.fromBytes 20 (Cur.withSlice buf)).1 = .ok hdr ∧ hdr.dcid = x

/-- Connection `c` has not ended, and packets with this ID are for it: an ID it has issued (or started with) that was not retired, or the
one its client chose, as long as the handshake is not complete. -/
def IsId (s : Router) (c : Nat) (x : Bytes) : Prop :=
  ∃ w, s.conns[c]? = some w ∧ w.running = true ∧ (x ∈ w.cur ∨ w.pending = some x)

/-- Also when it was retired and the router is not told yet. -/
def MayBe (s : Router) (c : Nat) (x : Bytes) : Prop :=
  ∃ w, s.conns[c]? = some w ∧ w.running = true ∧ (x ∈ w.cur ∨ x ∈ w.gone ∨ w.pending = some x)

/-- All that can happen from the start. -/
def After (l : List ROp) : Router := Router.run {} l

/-- The router has worked off all commands. -/
def Settled (s : Router) : Prop := s.queue = []

/-- What C152 asks for, of the first datagram of a batch. Never to another connection; to the right one once the router has heard of the
ID; and to none that ended. -/
structure Right (s : Router) : Prop where
  never_wrong : ∀ c x buf d, IsId s c x → For buf x → route s.map buf = .conn d → d = c
  settled : Settled s → ∀ c x buf, IsId s c x → For buf x → route s.map buf = .conn c
  no_ghost : Settled s → ∀ x buf d, For buf x → route s.map buf = .conn d → MayBe s d x

theorem inv {l : List ROp} (h : Router.OkRun {} l) : (After l).Inv := Router.inv_run Router.inv_init h

theorem route_for {m : CMap} {buf x : Bytes} (h : For buf x) :
    (∃ hdr, route m buf = match m (key x) with | some c => .conn c | none => .initial hdr) := by
  obtain ⟨hdr, h1, rfl⟩ := h
  refine ⟨hdr, ?_⟩
  rw [route_eq]
  simp only [idLen, h1]
  cases m (key hdr.dcid) <;> rfl

theorem isId_live {s : Router} {c : Nat} {x : Bytes} (h : IsId s c x) : ∃ w, s.live c = some w ∧ x ∈ w.ids := by
  obtain ⟨w, h1, h2, h3⟩ := h
  refine ⟨w, Router.live_iff.mpr ⟨h1, h2⟩, ?_⟩
  rcases h3 with h3 | h3 <;> simp [Worker.ids, h3]

theorem right {s : Router} (h : s.Inv) : Right s := by
  constructor
  · intro c x buf d hi hf hr
    obtain ⟨w, hw, hx⟩ := isId_live hi
    obtain ⟨hdr, e⟩ := route_for (m := s.map) hf
    rw [e] at hr
    cases hm : s.map (key x) with
    | none => rw [hm] at hr; cases hr
    | some d' =>
      rw [hm] at hr
      injection hr with hr
      subst hr
      exact h.agree _ _ _ hm (h.own c w hw x hx)
  · intro hq c x buf hi hf
    obtain ⟨w, hw, hx⟩ := isId_live hi
    obtain ⟨hdr, e⟩ := route_for (m := s.map) hf
    have := h.own c w hw x hx
    rw [Router.fin, hq] at this
    replace this : s.map (key x) = some c := this
    rw [e, this]
  · intro hq x buf d hf hr
    obtain ⟨hdr, e⟩ := route_for (m := s.map) hf
    rw [e] at hr
    cases hm : s.map (key x) with
    | none => rw [hm] at hr; cases hr
    | some d' =>
      rw [hm] at hr
      injection hr with hr
      subst hr
      obtain ⟨w, hw, y, hy, ey⟩ := h.back (key x) d' (by rw [Router.fin, hq]; exact hm)
      rw [key_inj ey] at hy
      obtain ⟨h1, h2⟩ := Router.live_iff.mp hw
      refine ⟨w, h1, h2, ?_⟩
      simp only [Worker.ids, List.mem_append, Option.mem_toList] at hy
      rcases hy with (hy | hy) | hy
      · exact .inl hy
      · exact .inr (.inl hy)
      · exact .inr (.inr hy)

/-- C152 as long as generated IDs are new, and no client chooses the ID of a connection that the router has not heard of yet. What is
missing: such clients (see `stolen_false`), and the datagrams after the first of a batch (see `batch_false`). -/
theorem right_partial {l : List ROp} (h : Router.OkRun {} l) : Right (After l) := right (inv h)

theorem isId_drain {s : Router} {c : Nat} {x : Bytes} (h : IsId s c x) : IsId (s.run (List.replicate s.queue.length .handle)) c x := by
  rw [Router.drain_eq]; exact h

/-- So at all times: after as many rounds as there are commands waiting, what is for a connection is given to it. -/
theorem heard {l : List ROp} (h : Router.OkRun {} l) {c : Nat} {x buf : Bytes} (hi : IsId (After l) c x) (hf : For buf x) :
    route ((After l).run (List.replicate (After l).queue.length .handle)).map buf = .conn c := by
  have hi' := isId_drain hi
  rw [Router.drain_eq] at hi' ⊢
  have hI := inv h
  obtain ⟨w, hw, hx⟩ := isId_live hi
  obtain ⟨hdr, e⟩ := route_for (m := (After l).fin) hf
  show route (After l).fin buf = .conn c
  rw [e, hI.own c w hw x hx]

/-- The connection has the ID now and after each of these steps. -/
def Through (s : Router) (c : Nat) (x : Bytes) : List ROp → Prop
  | [] => IsId s c x
  | op :: l => IsId s c x ∧ Through (s.step op) c x l

/-- And once it is so, it stays so for as long as the connection has the ID. -/
theorem heard_for_good {l l' : List ROp} (h : Router.OkRun {} l) (h' : (After l).OkRun l') {c : Nat} {x buf : Bytes} (hf : For buf x)
    (hr : route (After l).map buf = .conn c) (ht : Through (After l) c x l') : route ((After l).run l').map buf = .conn c := by
  have hI := inv h
  have hK : (After l).Keep := Router.keep_run Router.inv_init Router.keep_init h
  revert hI hK hr ht h'
  generalize After l = s
  intro h' hr ht hI hK
  have hm : s.map (key x) = some c := by
    obtain ⟨hdr, e⟩ := route_for (m := s.map) hf
    rw [e] at hr
    cases hm : s.map (key x) with
    | none => rw [hm] at hr; cases hr
    | some d => rw [hm] at hr; injection hr with hr; rw [hr]
  clear hr
  suffices (s.run l').map (key x) = some c by
    obtain ⟨hdr, e⟩ := route_for (m := (s.run l').map) hf
    rw [e, this]
  induction l' generalizing s with
  | nil => exact hm
  | cons op l' ih =>
    obtain ⟨w, hw, hx⟩ := isId_live ht.1
    exact ih _ h'.2 ht.2 (Router.inv_step hI h'.1) (Router.keep_step hI hK h'.1)
      (Router.stays_step hI hK h'.1 hm (hI.own c w hw x hx))

/-- A new connection is known at once, by its own ID and by the one the client chose. -/
theorem new_known (s : Router) (scid p : Bytes) (hp : s.map (key p) = none) (hne : p ≠ scid) (buf : Bytes) (hf : For buf scid ∨ For buf p) :
    route (s.step (.spawn scid (some p))).map buf = .conn s.conns.length := by
  have hk : key p ≠ key scid := fun e => hne (key_inj e)
  have hm : ∀ x, x = scid ∨ x = p → (s.step (.spawn scid (some p))).map (key x) = some s.conns.length := by
    intro x hx
    simp only [Router.step, hp, Option.isSome_none, Bool.false_eq_true, if_false, CMap.mapCid, CMap.put, if_true]
    rcases hx with rfl | rfl
    · simp [Ne.symm hk]
    · simp
  rcases hf with hf | hf
  · obtain ⟨hdr, e⟩ := route_for (m := (s.step (.spawn scid (some p))).map) hf
    rw [e, hm scid (.inl rfl)]
  · obtain ⟨hdr, e⟩ := route_for (m := (s.step (.spawn scid (some p))).map) hf
    rw [e, hm p (.inr rfl)]

/-- A connection that is over is forgotten: after the commands there is nothing left that leads to it. -/
theorem closed_forgotten {l : List ROp} (h : Router.OkRun {} l) {c : Nat} (hc : ∀ w, (After l).conns[c]? = some w → w.running = false) (k : Key) :
    ((After l).run (List.replicate (After l).queue.length .handle)).map k ≠ some c := by
  rw [Router.drain_eq]
  intro hk
  obtain ⟨w, hw, -⟩ := (inv h).back k c hk
  obtain ⟨h1, h2⟩ := Router.live_iff.mp hw
  rw [hc w h1] at h2
  cases h2

/-- What a packet with a short header is for, if IDs are of 20 bytes. -/
theorem short_for (b : UInt8) (hb : b.toNat < 128) (x : Bytes) (hx : x.length = 20) (rest : Bytes) : For (b :: (x ++ rest)) x := by
  have : shortDcid (b :: (x ++ rest)) = some x := by
    show (if b.toNat >>> 7 = 0 then (if idLen ≤ (x ++ rest).length then some ((x ++ rest).take idLen) else none) else none) = some x
    rw [if_pos (by rw [Nat.shiftRight_eq_div_pow]; omega), if_pos (by simp [hx])]
    simp [← hx]
  exact ⟨_, short_parse this, rfl⟩

/-! ### What goes wrong -/

def ida : Bytes := List.replicate 20 1
def idb : Bytes := List.replicate 20 2
def idx : Bytes := List.replicate 20 3
def cli : Bytes := List.replicate 20 4

/-- A client with a connection is given a second ID, and opens another connection with an Initial packet for that very ID before the router
has heard of it. When this second connection is established, or fails, the ID is taken from the first. -/
def steal : List ROp := [.spawn ida (some cli), .established 0, .handle, .issue 0 0 idx, .spawn idb (some idx), .handle, .established 1, .handle]

theorem stolen_false : Settled (After steal) ∧ IsId (After steal) 0 idx ∧ ∀ buf, For buf idx → ∀ c, route (After steal).map buf ≠ .conn c := by
  refine ⟨rfl, ⟨{ cur := [ida, idx] }, by decide +kernel, rfl, .inl (by decide)⟩, fun buf hf c => ?_⟩
  obtain ⟨hdr, e⟩ := route_for (m := (After steal).map) hf
  have : (After steal).map (key idx) = none := by decide +kernel
  rw [e, this]
  simp

/-- In between, what is for the first connection goes to the second. -/
theorem stolen_wrong : IsId (After (steal.take 5)) 0 idx ∧ ∀ buf, For buf idx → route (After (steal.take 5)).map buf = .conn 1 := by
  refine ⟨⟨{ cur := [ida, idx] }, by decide +kernel, rfl, .inl (by decide)⟩, fun buf hf => ?_⟩
  obtain ⟨hdr, e⟩ := route_for (m := (After (steal.take 5)).map) hf
  have : (After (steal.take 5)).map (key idx) = some 1 := by decide +kernel
  rw [e, this]

theorem right_false : ¬ ∀ l, Right (After l) := fun h =>
  stolen_false.2.2 _ (short_for 0x40 (by decide) idx (by decide) []) 0
    ((h steal).settled stolen_false.1 0 idx _ stolen_false.2.1 (short_for 0x40 (by decide) idx (by decide) []))

/-- A batch of datagrams as the kernel hands it out (generic receive offload): pieces of this size, the last may be shorter. They are all
given to the connection the first is for (router/mod.rs:243-265; `process_incoming`, worker.rs:1277-1315, cuts it up). -/
def pieces (size : Nat) : Nat → Bytes → List Bytes
  | 0, _ => []
  | f + 1, buf => if buf = [] then [] else buf.take size :: pieces size f (buf.drop size)

/-- Two connections of one client socket, one datagram for each in a batch: both go to the first. -/
theorem batch_false : ∃ l buf, Router.OkRun {} l ∧ Settled (After l) ∧ IsId (After l) 1 idb ∧
    (∃ b ∈ pieces 30 100 buf, For b idb) ∧ route (After l).map buf = .conn 0 := by
  refine ⟨[.spawn ida none, .spawn idb none], 0x40 :: (ida ++ List.replicate 9 0) ++ 0x40 :: (idb ++ List.replicate 9 0), ?_, rfl,
    ⟨{ cur := [idb] }, by decide +kernel, rfl, .inl (by decide)⟩, ⟨0x40 :: (idb ++ List.replicate 9 0), by decide +kernel, ?_⟩, by decide +kernel⟩
  · refine ⟨⟨by simp, by simp, by simp⟩, ⟨?_, by simp, by simp⟩, trivial⟩
    show idb ∉ [ida]
    decide
  · exact short_for 0x40 (by decide) idb (by decide) _

/-- With a generator of IDs of another length, packets with a short header are not recognised. -/
theorem length_false : ∃ (x buf : Bytes), x.length = 8 ∧ buf.take 9 = 0x40 :: x ∧ 21 ≤ buf.length ∧
    (∀ c, route (After [.spawn x none]).map buf ≠ .conn c) := by
  refine ⟨List.replicate 8 7, 0x40 :: (List.replicate 8 7 ++ List.replicate 30 0), rfl, rfl, by decide, fun c => ?_⟩
  have hf := short_for 0x40 (by decide) (List.replicate 8 7 ++ List.replicate 12 0) (by decide) (List.replicate 18 0)
  obtain ⟨hdr, e⟩ := route_for (m := (After [.spawn (List.replicate 8 7) none]).map) hf
  have hm : (After [.spawn (List.replicate 8 7) none]).map (key (List.replicate 8 7 ++ List.replicate 12 0)) = none := by decide +kernel
  rw [hm] at e
  intro hc
  rw [show (0x40 : UInt8) :: (List.replicate 8 7 ++ List.replicate 30 0) =
    0x40 :: (List.replicate 8 7 ++ List.replicate 12 0 ++ List.replicate 18 0) from rfl, e] at hc
  cases hc

/-! ### A run -/

/-- A client connects, gets a second ID, gives up the first; meanwhile another connection comes and goes. -/
def demo : List ROp :=
  [.spawn ida (some cli), .issue 0 0 idx, .spawn idb none, .handle, .established 0, .retire 0 0, .sweep 0, .close 1, .handle]

example : Router.OkRun {} demo := by
  refine ⟨⟨by simp, by decide, by simp⟩, ?_, ⟨?_, by simp, by simp⟩, trivial, trivial, trivial, trivial, trivial, trivial, trivial⟩
  · show idx ∉ _; decide +kernel
  · show idb ∉ _; decide +kernel

example : (After demo).queue = [.unmapCid ida, .unmapCid idb] ∧ (After demo).map (key cli) = none ∧ (After demo).map (key ida) = some 0 ∧
    (After demo).map (key idx) = some 0 ∧ (After demo).map (key idb) = some 1 := by decide +kernel

example : IsId (After demo) 0 idx ∧ For (0x40 :: (idx ++ [])) idx :=
  ⟨⟨{ cur := [idx] }, by decide +kernel, rfl, .inl (by decide)⟩, short_for 0x40 (by decide) idx (by decide) []⟩

end Verif.Props.C152
