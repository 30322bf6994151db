import Verif.Small.Assembly

/-!
# C160: Packets and datagrams keep to their sizes
-/

namespace Verif.Props.C160
open Verif.Asm

/-! ### What filling a packet keeps -/

theorem off_tag (x : In) : x.off + x.tag = x.overhead := by unfold In.off In.overhead; omega

/-- Bytes used and left. -/
def tot (b : B) : Nat := b.frames.sum + b.left

theorem push_tot (b : B) (n : Nat) (h : n ≤ b.left) : tot (b.push n) = tot b := by
  simp only [tot, B.push, List.sum_append, List.sum_cons, List.sum_nil]; omega

theorem pushE_tot (b : B) (n : Nat) (h : n ≤ b.left) : tot (b.pushE n) = tot b := push_tot b n h

/-- What later steps may assume of earlier ones. -/
structure Grow (a b : B) : Prop where
  tot : tot b = tot a
  frames : ∃ l, b.frames = a.frames ++ l
  left : b.left ≤ a.left
  eliciting : a.eliciting = true → b.eliciting = true
  inFlight : a.inFlight = true → b.inFlight = true
  flight : b.inFlight = true → a.inFlight = true ∨ 1 ≤ a.left
  elicits : b.eliciting = true → a.eliciting = true ∨ b.inFlight = true
  probe : b.probe = a.probe

theorem Grow.refl (a : B) : Grow a a :=
  ⟨rfl, ⟨[], by simp⟩, Nat.le_refl _, id, id, .inl, .inl, rfl⟩

theorem Grow.trans {a b c : B} (h : Grow a b) (k : Grow b c) : Grow a c := by
  obtain ⟨l, hl⟩ := h.frames
  obtain ⟨m, hm⟩ := k.frames
  refine ⟨k.tot.trans h.tot, ⟨l ++ m, by rw [hm, hl, List.append_assoc]⟩, Nat.le_trans k.left h.left, fun x => k.eliciting (h.eliciting x), fun x => k.inFlight (h.inFlight x), ?_, ?_, k.probe.trans h.probe⟩
  · intro x
    rcases k.flight x with y | y
    · exact h.flight y
    · exact .inr (Nat.le_trans y h.left)
  · intro x
    rcases k.elicits x with y | y
    · rcases h.elicits y with z | z
      · exact .inl z
      · exact .inr (k.inFlight z)
    · exact .inr y

theorem grow_pushE (b : B) (n : Nat) (h : n ≤ b.left) (h1 : 1 ≤ b.left) : Grow b (b.pushE n) :=
  ⟨pushE_tot b n h, ⟨[n], rfl⟩, Nat.sub_le _ _, fun _ => rfl, fun _ => rfl, fun _ => .inr h1, fun _ => .inr rfl, rfl⟩

theorem grow_pad (b : B) (n : Nat) (h : n ≤ b.left) (h1 : 1 ≤ b.left) : Grow b { b.push n with inFlight := true } :=
  ⟨push_tot b n h, ⟨[n], rfl⟩, Nat.sub_le _ _, id, fun _ => rfl, fun _ => .inr h1, fun _ => .inr rfl, rfl⟩

/-- Frames have at least one byte. -/
def Piece.Ok : Piece → Prop
  | .whole n => 1 ≤ n
  | .data .. => True

theorem grow_piece (b : B) (p : Piece) (h : Piece.Ok p) : Grow b (b.piece p) := by
  cases p with
  | whole n =>
    simp only [B.piece]
    split
    · have h : 1 ≤ n := h
      exact grow_pushE b n (by omega) (by omega)
    · exact .refl b
  | data o hd a =>
    simp only [B.piece]
    split
    · rename_i c
      exact grow_pushE b _ (by omega) (by omega)
    · exact .refl b

theorem grow_pieces (l : List Piece) (b : B) (h : ∀ p ∈ l, Piece.Ok p) : Grow b (l.foldl B.piece b) := by
  induction l generalizing b with
  | nil => exact .refl b
  | cons p l ih =>
    exact (grow_piece b p (h p List.mem_cons_self)).trans (ih _ fun q hq => h q (List.mem_cons_of_mem _ hq))

theorem grow_ping (b : B) (w : Bool) : Grow b (b.ping w) := by
  unfold B.ping
  split
  · rename_i c; exact grow_pushE b 1 (by omega) (by omega)
  · exact .refl b

theorem grow_fill (b : B) (w : Bool) : Grow b (b.fill w) := by
  unfold B.fill
  split
  · rename_i c; exact grow_pad b _ (Nat.le_refl _) (by omega)
  · exact .refl b

theorem grow_least (b : B) : Grow b b.least := by
  unfold B.least
  split
  · split
    · rename_i c d; exact grow_pad b _ d (by simp only [payloadMin] at *; omega)
    · exact .refl b
  · exact .refl b

/-! ### The assumptions -/

/-- What holds of the inputs: frames have at least one byte and ACK frames at least five; a probe
has at least 1200 bytes, which is the least MTU, and a 1-RTT header has at most 21 bytes, a packet
number at most four, the tag sixteen. -/
structure Wf (x : In) : Prop where
  pieces : ∀ p ∈ x.pieces, Piece.Ok p
  ack : ∀ n d, x.ack = some (n, d) → 5 ≤ n
  probe : ∀ n a, x.probe = some (n, a) → 1200 ≤ n
  mtu : ∀ m, x.mtu = some m → 1200 ≤ m
  short : x.ty = .short → x.hdr ≤ 21
  pn : x.pnLen ≤ 4
  tag : x.tag ≤ 16

theorem Wf.overhead {x : In} (h : Wf x) (hs : x.ty = .short) : x.overhead ≤ 41 := by
  have := h.short hs; have := h.pn; have := h.tag
  simp only [In.overhead, hs, if_true]; omega

/-- The bytes that a packet may have. -/
def room (x : In) (cap : Nat) : Nat :=
  match x.mtu with
  | some m => min m cap
  | none => cap

theorem room_le (x : In) (cap : Nat) : room x cap ≤ cap := by unfold room; split <;> omega

/-- After the ACK frame. -/
def afterAck (x : In) (left : Nat) : B := ({ left := left } : B).ack (x.cwnd - x.overhead) x.ack

/-- After the cut to the window. -/
def afterCut (x : In) (left : Nat) : B :=
  { afterAck x left with left := min (afterAck x left).left (x.cwnd - x.overhead - (left - (afterAck x left).left)) }

structure Acked (x : In) (left : Nat) (b : B) : Prop where
  tot : tot b = left
  plain : b.eliciting = false ∧ b.inFlight = false ∧ b.probe = false
  frames : b.frames = [] ∨ ∃ n d, x.ack = some (n, d) ∧ b.frames = [n]

theorem afterAck_spec (x : In) (left : Nat) : Acked x left (afterAck x left) := by
  have base : Acked x left ({ left := left } : B) := ⟨by simp [tot], ⟨rfl, rfl, rfl⟩, .inl rfl⟩
  unfold afterAck
  cases ha : x.ack with
  | none => unfold B.ack; dsimp only; exact base
  | some p =>
    obtain ⟨n, d⟩ := p
    unfold B.ack; dsimp only
    split
    · rename_i c
      exact ⟨(push_tot _ n c.2).trans base.tot, ⟨rfl, rfl, rfl⟩, .inr ⟨n, d, ha, rfl⟩⟩
    · exact base

structure Cut (x : In) (left : Nat) (b : B) : Prop where
  tot : C160.tot b ≤ left
  win : 1 ≤ b.left → x.overhead + C160.tot b ≤ x.cwnd
  plain : b.eliciting = false ∧ b.inFlight = false ∧ b.probe = false
  frames : b.frames = [] ∨ ∃ n d, x.ack = some (n, d) ∧ b.frames = [n]
  free : left ≤ x.cwnd - x.overhead → C160.tot b = left
  empty : b.frames = [] → b.left = min left (x.cwnd - x.overhead)

theorem afterCut_spec (x : In) (left : Nat) : Cut x left (afterCut x left) := by
  have h := afterAck_spec x left
  have ht := h.tot
  simp only [tot] at ht
  refine ⟨?_, ?_, h.plain, h.frames, ?_, ?_⟩
  · simp only [tot, afterCut]; omega
  · simp only [tot, afterCut]; omega
  · simp only [tot, afterCut]; omega
  · intro he
    have he : (afterAck x left).frames = [] := he
    rw [he] at ht
    simp only [List.sum_nil] at ht
    simp only [afterCut]; omega

/-! ### What becomes of the probe -/

inductive Probed (x : In) (cap : Nat) (b : B) : Option (Option B) → Prop where
  | plain : Probed x cap b (some (some b))
  | probe (size allow : Nat) (c : B) (e : x.probe = some (size, allow)) (hs : x.ty = .short) (ha : allow > size) (hc : size ≤ cap)
      (hf : b.frames = []) (hf' : c.frames ≠ []) (ho : x.overhead < size) (ht : c.frames.sum = size - x.overhead) (hl : c.left = 0)
      (h1 : c.eliciting = true) (h2 : c.inFlight = true) (h3 : c.probe = true) : Probed x cap b (some (some c))
  | done (size allow : Nat) (e : x.probe = some (size, allow)) (hs : x.ty = .short) (ho : size < x.overhead) : Probed x cap b (some none)
  | panic (size allow : Nat) (e : x.probe = some (size, allow)) (hs : x.ty = .short) (ho : size = x.overhead) : Probed x cap b none

theorem probing_spec (x : In) (cap : Nat) (b : B) : Probed x cap b (x.probing cap b) := by
  unfold In.probing
  split
  · exact .plain
  · rename_i size allow e
    split
    · rename_i c
      split
      · rename_i ho; exact .done size allow e c.1 ho
      · split
        · exact .panic size allow e c.1 (by omega)
        · refine .probe size allow _ e c.1 c.2.1 c.2.2.1 c.2.2.2 (by simp [B.push, B.pushE]) (by omega) ?_ ?_ rfl rfl rfl
          · simp only [B.push, B.pushE, c.2.2.2, List.nil_append, List.sum_append, List.sum_cons, List.sum_nil]; omega
          · simp only [B.push, B.pushE]; omega
    · exact .plain

/-! ### One packet -/

/-- The end of the packet. -/
def finish (x : In) (b : B) (hi : Bool) : B :=
  (((x.pieces.foldl B.piece b).ping x.ping).fill ((hi || !x.validated) && x.ty = .short)).least

theorem grow_finish {x : In} (h : Wf x) (b : B) (hi : Bool) : Grow b (finish x b hi) :=
  (((grow_pieces _ b h.pieces).trans (grow_ping _ _)).trans (grow_fill _ _)).trans (grow_least _)

/-- How a packet came about. -/
structure Made (x : In) (cap : Nat) (hi : Bool) (p : Pkt) (left : Nat) (b : B) : Prop where
  hdr : x.hdr ≤ cap
  room : left + x.overhead = C160.room x cap
  min : payloadMin ≤ left
  probed : Probed x cap (afterCut x left) (some (some b))
  any : ((x.pieces.foldl B.piece b).ping x.ping).frames ≠ []
  eq : p = { ty := x.ty, off := x.off, frames := (finish x b hi).frames, tag := x.tag, eliciting := (finish x b hi).eliciting,
             inFlight := (finish x b hi).inFlight, probe := (finish x b hi).probe }

theorem single_ok {x : In} {cap : Nat} {hi : Bool} {p : Pkt} (h : x.single cap hi = .ok p) : ∃ left b, Made x cap hi p left b := by
  unfold In.single at h
  split at h
  · cases h
  · rename_i c0
    dsimp only at h
    change (if room x cap < x.overhead then Res.done else if room x cap - x.overhead < payloadMin then Res.done else x.content cap (room x cap - x.overhead) hi) = _ at h
    split at h
    · cases h
    · split at h
      · cases h
      · rename_i c1 c2
        unfold In.content at h
        dsimp only at h
        change (match x.probing cap (afterCut x (room x cap - x.overhead)) with | none => _ | some none => _ | some (some b) => _) = _ at h
        have hp := probing_spec x cap (afterCut x (room x cap - x.overhead))
        revert h
        split
        · intro h; cases h
        · intro h; cases h
        · rename_i b hb
          rw [hb] at hp
          intro h
          split at h
          · cases h
          · rename_i c3
            refine ⟨_, b, by omega, by omega, by omega, hp, c3, ?_⟩
            injection h with h
            exact h.symm

theorem made_sum {x : In} {cap : Nat} {hi : Bool} {p : Pkt} {left : Nat} {b : B} (hw : Wf x) (m : Made x cap hi p left b) :
    p.size = x.overhead + (finish x b hi).frames.sum ∧ (finish x b hi).frames.sum + (finish x b hi).left = tot b := by
  refine ⟨?_, (grow_finish hw b hi).tot⟩
  rw [m.eq]
  simp only [Pkt.size, Pkt.payload]
  have := off_tag x
  omega

/-- A packet fits the buffer; one that is no MTU probe also the MTU found so far; and a probe has
exactly the size to be probed. (So no write of a frame into the buffer fails.) -/
theorem fits {x : In} {cap : Nat} {hi : Bool} {p : Pkt} (hw : Wf x) (h : x.single cap hi = .ok p) :
    p.size ≤ cap ∧ (p.probe = false → ∀ m, x.mtu = some m → p.size ≤ m) ∧
      (p.probe = true → ∃ a, x.probe = some (p.size, a)) := by
  obtain ⟨left, b, m⟩ := single_ok h
  obtain ⟨e1, e2⟩ := made_sum hw m
  have hl := m.room
  have hr := room_le x cap
  have hg := (grow_finish hw b hi)
  have hpr : p.probe = b.probe := by rw [m.eq]; exact hg.probe
  have hp := m.probed
  cases hp with
  | plain =>
    have ht := (afterCut_spec x left).tot
    refine ⟨by omega, ?_, ?_⟩
    · intro _ n hn
      have : room x cap ≤ n := by unfold room; rw [hn]; exact Nat.min_le_left _ _
      omega
    · intro hh; rw [hpr, (afterCut_spec x left).plain.2.2] at hh; cases hh
  | probe size allow c e hs ha hc hf hf' ho ht hl h1 h2 h3 =>
    have hz : (finish x b hi).left = 0 := by have := hg.left; omega
    have hsz : p.size = size := by simp only [tot] at e2; omega
    refine ⟨by omega, ?_, ?_⟩
    · intro hh; rw [hpr, h3] at hh; cases hh
    · intro _; exact ⟨allow, by rw [e, hsz]⟩

/-- The length field of packets that have one takes two bytes, as long as the packet has less than
2^14 bytes. -/
theorem length_field {x : In} {cap : Nat} {hi : Bool} {p : Pkt} (hw : Wf x) (h : x.single cap hi = .ok p) (hc : cap ≤ 16383) :
    x.pnLen + p.payload + x.tag < 16384 := by
  have := (fits hw h).1
  obtain ⟨left, b, m⟩ := single_ok h
  have e : p.off = x.off ∧ p.tag = x.tag := by rw [m.eq]; exact ⟨rfl, rfl⟩
  simp only [Pkt.size, e] at this
  simp only [In.off] at this
  omega

/-- What counts against the window keeps to it: a packet that elicits an acknowledgement or is
padded is no larger than the bytes available in the window (for a probe: of the path sent on). -/
theorem window {x : In} {cap : Nat} {hi : Bool} {p : Pkt} (hw : Wf x) (h : x.single cap hi = .ok p)
    (hp : ∀ n a, x.probe = some (n, a) → a ≤ x.cwnd) (hf : p.inFlight = true ∨ p.eliciting = true) : p.size ≤ x.cwnd := by
  obtain ⟨left, b, m⟩ := single_ok h
  obtain ⟨e1, e2⟩ := made_sum hw m
  have hg := grow_finish hw b hi
  have hfl : b.eliciting = true ∨ (finish x b hi).inFlight = true := by
    rcases hf with hf | hf
    · right; rw [m.eq] at hf; exact hf
    · rw [m.eq] at hf
      exact hg.elicits hf
  cases m.probed with
  | plain =>
    have hc := afterCut_spec x left
    rcases hfl with hfl | hfl
    · rw [hc.plain.1] at hfl; cases hfl
    · rcases hg.flight hfl with h1 | h1
      · rw [hc.plain.2.1] at h1; cases h1
      · have := hc.win h1; omega
  | probe size allow c e hs ha hc hf hf' ho ht hl h1 h2 h3 =>
    have := hp _ _ e
    have hz : (finish x b hi).left = 0 := by have := hg.left; omega
    simp only [tot] at e2; omega

/-- No packet counts as eliciting an acknowledgement without counting as in flight. -/
theorem eliciting_inFlight {x : In} {cap : Nat} {hi : Bool} {p : Pkt} (hw : Wf x) (h : x.single cap hi = .ok p) (he : p.eliciting = true) :
    p.inFlight = true := by
  obtain ⟨left, b, m⟩ := single_ok h
  have hg := grow_finish hw b hi
  rw [m.eq] at he ⊢
  rcases hg.elicits he with h1 | h1
  · cases m.probed with
    | plain => rw [(afterCut_spec x left).plain.1] at h1; cases h1
    | probe size allow c e hs ha hc hf hf' ho ht hl h1 h2 h3 => exact hg.inFlight h2
  · exact h1

/-- Nothing is subtracted from less. -/
theorem no_panic {x : In} (hw : Wf x) (cap : Nat) (hi : Bool) : x.single cap hi ≠ .panic := by
  intro h
  unfold In.single at h
  split at h
  · cases h
  · dsimp only at h
    change (if room x cap < x.overhead then Res.done else if room x cap - x.overhead < payloadMin then Res.done else x.content cap (room x cap - x.overhead) hi) = _ at h
    split at h
    · cases h
    · split at h
      · cases h
      · unfold In.content at h
        dsimp only at h
        change (match x.probing cap (afterCut x (room x cap - x.overhead)) with | none => _ | some none => _ | some (some b) => _) = _ at h
        have hp := probing_spec x cap (afterCut x (room x cap - x.overhead))
        revert h
        split
        · rename_i hb
          rw [hb] at hp
          cases hp with
          | panic size allow e hs ho => have := hw.overhead hs; have := hw.probe _ _ e; omega
        · intro h; cases h
        · intro h; split at h <;> cases h

theorem least_sum (b : B) (h : payloadMin ≤ tot b) : payloadMin ≤ b.least.frames.sum := by
  unfold B.least
  split
  · split
    · simp only [B.push, List.sum_append, List.sum_cons, List.sum_nil]; omega
    · simp only [tot] at h; omega
  · omega

/-- If the window has room for four bytes of payload, a packet has at least these. -/
theorem min_payload_partial {x : In} {cap : Nat} {hi : Bool} {p : Pkt} (hw : Wf x) (h : x.single cap hi = .ok p)
    (hc : x.overhead + 4 ≤ x.cwnd) : 4 ≤ p.payload := by
  obtain ⟨left, b, m⟩ := single_ok h
  have hm := m.min
  have e : p.payload = (finish x b hi).frames.sum := by rw [m.eq]; rfl
  rw [e]
  have hg := ((grow_pieces _ b hw.pieces).trans (grow_ping _ x.ping)).trans (grow_fill _ ((hi || !x.validated) && x.ty = .short))
  refine least_sum _ ?_
  rw [hg.tot]
  simp only [payloadMin] at *
  cases m.probed with
  | plain =>
    have hc := afterCut_spec x left
    rcases hc.frames with hf | ⟨n, d, ha, hf⟩
    · have := hc.empty hf; simp only [tot]; omega
    · have := hw.ack n d ha
      simp only [tot, hf, List.sum_cons, List.sum_nil]; omega
  | probe size allow c e hs ha hc hf hf' ho ht hl h1 h2 h3 =>
    have := hw.probe _ _ e
    have := hw.overhead hs
    simp only [tot]; omega

/-- In general not: with one byte left in the window, a packet with a PING has one byte of payload,
although the buffer has room for more. With a packet number of one byte the receiver would need at
least three to find its sample for header protection. -/
theorem tiny : ∃ x cap p, Wf x ∧ x.single cap false = .ok p ∧ p.payload + x.pnLen < 4 ∧ p.size + 1000 < cap :=
  ⟨{ ty := .short, hdr := 9, cwnd := 27, ping := true }, 1200, _,
    ⟨by simp, by simp, by simp, by simp, by decide, by decide, by decide⟩, rfl, by decide, by decide⟩

/-- An acknowledgement that is due goes out whenever the buffer has room for it, whatever the window. -/
theorem ack_sent {x : In} {cap n : Nat} {hi : Bool} (hw : Wf x) (ha : x.ack = some (n, true)) (hc : x.overhead + n ≤ room x cap) :
    ∃ p, x.single cap hi = .ok p ∧ ∃ l, p.frames = n :: l := by
  have hn := hw.ack n true ha
  have hr := room_le x cap
  have ho := off_tag x
  cases hs : x.single cap hi with
  | panic => exact absurd hs (no_panic hw cap hi)
  | done =>
    exfalso
    unfold In.single at hs
    split at hs
    · simp only [In.off] at ho; omega
    · dsimp only at hs
      change (if room x cap < x.overhead then Res.done else if room x cap - x.overhead < payloadMin then Res.done else x.content cap (room x cap - x.overhead) hi) = _ at hs
      split at hs
      · omega
      · split at hs
        · simp only [payloadMin] at *; omega
        · unfold In.content at hs
          dsimp only at hs
          change (match x.probing cap (afterCut x (room x cap - x.overhead)) with | none => _ | some none => _ | some (some b) => _) = _ at hs
          have hf : (afterCut x (room x cap - x.overhead)).frames = [n] := by
            simp only [afterCut, afterAck, ha, B.ack]
            rw [if_pos ⟨.inl trivial, by show n ≤ room x cap - x.overhead; omega⟩]
            rfl
          have hp := probing_spec x cap (afterCut x (room x cap - x.overhead))
          have hp2 : x.probing cap (afterCut x (room x cap - x.overhead)) = some (some (afterCut x (room x cap - x.overhead))) := by
            unfold In.probing
            split
            · rfl
            · rw [if_neg (by rw [hf]; simp)]
          rw [hp2] at hs
          dsimp only at hs
          split at hs
          · rename_i c
            obtain ⟨l, hl⟩ := ((grow_pieces _ (afterCut x (room x cap - x.overhead)) hw.pieces).trans (grow_ping _ x.ping)).frames
            rw [hl, hf] at c
            cases c
          · cases hs
  | ok p =>
    refine ⟨p, rfl, ?_⟩
    obtain ⟨left, b, m⟩ := single_ok hs
    have hl := m.room
    have hf : (afterCut x left).frames = [n] := by
      simp only [afterCut, afterAck, ha, B.ack]
      rw [if_pos ⟨.inl trivial, by show n ≤ left; omega⟩]
      rfl
    cases m.probed with
    | plain =>
      obtain ⟨l, hl⟩ := (grow_finish hw (afterCut x left) hi).frames
      refine ⟨l, ?_⟩
      rw [m.eq]
      show (finish x (afterCut x left) hi).frames = _
      rw [hl, hf]; rfl
    | probe size allow c e hs ha hc hf0 hf' ho ht hl h1 h2 h3 => rw [hf] at hf0; cases hf0

/-- A packet with nothing but an acknowledgement does not count against the window. -/
theorem ack_only {x : In} {cap n : Nat} {p : Pkt} (hw : Wf x) (h : x.single cap false = .ok p) (hf : p.frames = [n])
    (ha : ∃ d, x.ack = some (n, d)) (hp : x.pieces = []) (hg : x.ping = false) (hq : x.probe = none) (hv : x.validated = true) : p.inFlight = false := by
  obtain ⟨d, ha⟩ := ha
  obtain ⟨left, b, m⟩ := single_ok h
  have hn := hw.ack n d ha
  have hs : (finish x b false) = b.least := by
    unfold finish
    rw [hp, hg, hv]
    simp [B.ping, B.fill]
  cases m.probed with
  | plain =>
    have hc := afterCut_spec x left
    have hsum : 4 ≤ (afterCut x left).frames.sum := by
      rcases hc.frames with h0 | ⟨k, d', hk, h0⟩
      · have := m.any
        rw [hp, hg] at this
        simp only [List.foldl_nil, B.ping, h0] at this
        simp [h0] at this
      · rw [h0]; rw [ha] at hk; cases hk; simp only [List.sum_cons, List.sum_nil]; omega
    have : (afterCut x left).least = afterCut x left := by
      unfold B.least; rw [if_neg (by simp only [payloadMin]; omega)]
    rw [m.eq]
    show (finish x (afterCut x left) false).inFlight = false
    rw [hs, this]; exact hc.plain.2.1
  | probe size allow c e => rw [hq] at e; cases e

theorem piece_ne {b : B} (q : Piece) (h : b.frames ≠ []) : (b.piece q).frames ≠ [] := by
  unfold B.piece
  split <;> split <;> simp_all [B.pushE, B.push]

theorem pieces_ne (l : List Piece) {b : B} (h : b.frames ≠ []) : (l.foldl B.piece b).frames ≠ [] := by
  induction l generalizing b with
  | nil => exact h
  | cons q l ih => exact ih (piece_ne q h)

theorem pieces_some (l : List Piece) (b : B) (n : Nat) (hm : Piece.whole n ∈ l) (hn : n ≤ b.left) : (l.foldl B.piece b).frames ≠ [] := by
  induction l generalizing b with
  | nil => cases hm
  | cons q l ih =>
    simp only [List.foldl_cons]
    by_cases hq : (b.piece q).frames = []
    · have hb : b.piece q = b := by
        revert hq
        unfold B.piece
        split <;> split <;> simp [B.pushE, B.push]
      rcases List.mem_cons.mp hm with h | h
      · subst h
        simp only [B.piece] at hq
        rw [if_pos hn] at hq
        simp [B.pushE, B.push] at hq
      · rw [hb]; exact ih b h hn
    · exact pieces_ne l hq

/-- If there is a frame to send for which the buffer, the MTU and the window have room, something is
sent. -/
theorem sends {x : In} {cap n : Nat} {hi : Bool} (hw : Wf x) (hm : Piece.whole n ∈ x.pieces) (ha : x.ack = none) (hp : x.probe = none)
    (hr : x.overhead + max n 4 ≤ room x cap) (hc : x.overhead + n ≤ x.cwnd) : ∃ p, x.single cap hi = .ok p := by
  have hr' := room_le x cap
  have ho := off_tag x
  have hn : 1 ≤ n := hw.pieces _ hm
  cases hs : x.single cap hi with
  | panic => exact absurd hs (no_panic hw cap hi)
  | ok p => exact ⟨p, rfl⟩
  | done =>
    exfalso
    unfold In.single at hs
    split at hs
    · simp only [In.off] at ho; omega
    · dsimp only at hs
      change (if room x cap < x.overhead then Res.done else if room x cap - x.overhead < payloadMin then Res.done else x.content cap (room x cap - x.overhead) hi) = _ at hs
      split at hs
      · omega
      · split at hs
        · simp only [payloadMin] at *; omega
        · unfold In.content at hs
          dsimp only at hs
          change (match x.probing cap (afterCut x (room x cap - x.overhead)) with | none => _ | some none => _ | some (some b) => _) = _ at hs
          have hp2 : ∀ b, x.probing cap b = some (some b) := by intro b; unfold In.probing; rw [hp]
          rw [hp2] at hs
          dsimp only at hs
          split at hs
          · rename_i c
            have hcut := afterCut_spec x (room x cap - x.overhead)
            have hfe : (afterCut x (room x cap - x.overhead)).frames = [] := by
              rcases hcut.frames with h | ⟨k, d, hk, _⟩
              · exact h
              · rw [ha] at hk; cases hk
            have hl := hcut.empty hfe
            have hne := pieces_some x.pieces (afterCut x (room x cap - x.overhead)) n hm (by omega)
            obtain ⟨l, hl⟩ := (grow_ping (x.pieces.foldl B.piece (afterCut x (room x cap - x.overhead))) x.ping).frames
            rw [hl] at c
            simp only [List.append_eq_nil_iff] at c
            exact hne c.1
          · cases hs

theorem fill_left (b : B) : (b.fill true).left = 0 := by
  unfold B.fill
  split
  · simp [B.push]
  · simp_all

/-- A 1-RTT packet after an Initial packet, or to an address not validated, fills what the buffer and
the MTU give, if the window allows. -/
theorem filled {x : In} {cap : Nat} {hi : Bool} {p : Pkt} (hw : Wf x) (h : x.single cap hi = .ok p) (hs : x.ty = .short)
    (hv : hi = true ∨ x.validated = false) (hc : room x cap ≤ x.cwnd) : p.probe = true ∨ p.size = room x cap := by
  obtain ⟨left, b, m⟩ := single_ok h
  obtain ⟨e1, e2⟩ := made_sum hw m
  have hl := m.room
  have hpr : p.probe = b.probe := by rw [m.eq]; exact (grow_finish hw b hi).probe
  cases m.probed with
  | probe size allow c e hs ha hc hf hf' ho ht hl h1 h2 h3 => exact .inl (by rw [hpr, h3])
  | plain =>
    right
    have hz : (finish x (afterCut x left) hi).left = 0 := by
      have e : ((hi || !x.validated) && decide (x.ty = .short)) = true := by
        rcases hv with hv | hv <;> simp [hv, hs]
      unfold finish
      rw [e]
      have h1 := fill_left ((x.pieces.foldl B.piece (afterCut x left)).ping x.ping)
      have h2 := (grow_least (((x.pieces.foldl B.piece (afterCut x left)).ping x.ping).fill true)).left
      omega
    have := (afterCut_spec x left).free (by omega)
    omega

/-- So a probing packet to an address not validated has 1200 bytes, if buffer and window allow. -/
theorem probing_1200 {x : In} {cap : Nat} {p : Pkt} (hw : Wf x) (h : x.single cap false = .ok p) (hs : x.ty = .short)
    (hv : x.validated = false) (hc : 1200 ≤ cap) (hcw : cap ≤ x.cwnd) : 1200 ≤ p.size := by
  have hr := room_le x cap
  rcases filled hw h hs (.inr hv) (by omega) with h1 | h1
  · obtain ⟨a, ha⟩ := (fits hw h).2.2 h1
    exact hw.probe _ _ ha
  · rw [h1]
    unfold room
    split
    · rename_i m hm; have := hw.mtu m hm; omega
    · exact hc

/-! ### Datagrams -/

/-- Bytes of packets. -/
def sizes (l : List Pkt) : Nat := (l.map Pkt.size).sum

theorem sizes_append (a b : List Pkt) : sizes (a ++ b) = sizes a + sizes b := by simp [sizes]

theorem sizes_one (p : Pkt) : sizes [p] = p.size := by simp [sizes]

def isInitial (p : Pkt) : Bool := p.ty == .initial

/-- How the packets of a datagram came about: each from its turn, with what earlier ones left of the
buffer; a 1-RTT packet and one with which to stop are the last. -/
inductive Built (limit : Nat) : List Turn → List Pkt → List Pkt → Prop where
  | nil (ts l) : Built limit ts l []
  | last (t ts l p) (h : t.x.single (limit - sizes l) (l.any isInitial) = .ok p) : Built limit (t :: ts) l [p]
  | cons (t ts l p k) (h : t.x.single (limit - sizes l) (l.any isInitial) = .ok p) (hs : p.ty ≠ .short) (ht : t.stop = false)
      (hk : Built limit ts (l ++ [p]) k) : Built limit (t :: ts) l (p :: k)

theorem loop_built (limit : Nat) (ts : List Turn) (hw : ∀ t ∈ ts, Wf t.x) (left : Nat) (l : List Pkt) (hl : left + sizes l = limit) (r : List Pkt × Nat)
    (h : loop ts left l = some r) : ∃ k, r.1 = l ++ k ∧ r.2 + sizes r.1 = limit ∧ Built limit ts l k := by
  induction ts generalizing left l with
  | nil =>
    unfold loop at h
    injection h with h
    subst h
    exact ⟨[], by simp, hl, .nil _ _⟩
  | cons t ts ih =>
    unfold loop at h
    split at h
    · injection h with h
      subst h
      exact ⟨[], by simp, hl, .nil _ _⟩
    · have e : left = limit - sizes l := by omega
      revert h
      split
      · intro h
        injection h with h
        subst h
        exact ⟨[], by simp, hl, .nil _ _⟩
      · intro h; cases h
      · rename_i p hp
        have hfit := (fits (hw t List.mem_cons_self) hp).1
        rw [e] at hp
        have hsz : left - p.size + sizes (l ++ [p]) = limit := by rw [sizes_append, sizes_one]; omega
        intro h
        split at h
        · injection h with h
          subst h
          exact ⟨[p], rfl, hsz, .last _ _ _ _ hp⟩
        · rename_i c
          obtain ⟨k, h1, h2, h3⟩ := ih (fun t ht => hw t (List.mem_cons_of_mem _ ht)) _ _ hsz h
          refine ⟨p :: k, by rw [h1]; simp, h2, .cons _ _ _ _ _ hp (fun hh => c (.inl hh)) ?_ h3⟩
          cases ht : t.stop with
          | false => rfl
          | true => exact absurd (.inr ht) c

theorem dgram_spec {ts : List Turn} {limit : Nat} {d : Dgram} (hw : ∀ t ∈ ts, Wf t.x) (h : dgram ts limit = some (some d)) :
    ∃ left, left + sizes d.pkts = limit ∧ Built limit ts [] d.pkts ∧ sizes d.pkts ≠ 0 ∧
      d.pad = if d.pkts.any isInitial ∧ left > 0 ∧ sizes d.pkts < minInitial then min left (minInitial - sizes d.pkts) else 0 := by
  unfold dgram at h
  split at h
  · cases h
  · rename_i l left hl
    dsimp only at h
    split at h
    · cases h
    · rename_i c
      injection h with h
      injection h with h
      obtain ⟨k, h1, h2, h3⟩ := loop_built limit ts hw limit [] (by simp [sizes]) _ hl
      simp only [List.nil_append] at h1
      subst h1
      subst h
      exact ⟨left, h2, h3, c, rfl⟩

/-- Every packet is made by one turn, in order, with what is left of the buffer. -/
theorem built {ts : List Turn} {limit : Nat} {d : Dgram} (hw : ∀ t ∈ ts, Wf t.x) (h : dgram ts limit = some (some d)) :
    Built limit ts [] d.pkts := by
  obtain ⟨_, _, h, _⟩ := dgram_spec hw h
  exact h

/-- No datagram is larger than its limit. -/
theorem dgram_fits {ts : List Turn} {limit : Nat} {d : Dgram} (hw : ∀ t ∈ ts, Wf t.x) (h : dgram ts limit = some (some d)) : d.size ≤ limit := by
  obtain ⟨left, h1, _, _, h4⟩ := dgram_spec hw h
  have : d.size = sizes d.pkts + d.pad := rfl
  rw [this, h4]
  split <;> omega

/-- A datagram with an Initial packet has 1200 bytes, or as many as its limit allows. -/
theorem initial_1200 {ts : List Turn} {limit : Nat} {d : Dgram} (hw : ∀ t ∈ ts, Wf t.x) (h : dgram ts limit = some (some d))
    (hi : ∃ p ∈ d.pkts, p.ty = .initial) : min 1200 limit ≤ d.size := by
  obtain ⟨left, h1, _, _, h4⟩ := dgram_spec hw h
  have e : d.size = sizes d.pkts + d.pad := rfl
  have ha : d.pkts.any isInitial = true := by
    obtain ⟨p, hp, ht⟩ := hi
    exact List.any_eq_true.mpr ⟨p, hp, by simp [isInitial, ht]⟩
  rw [ha] at h4
  rw [e, h4]
  split <;> rename_i c <;> simp only [minInitial, true_and] at * <;> omega

theorem built_last {limit : Nat} {ts : List Turn} {l k : List Pkt} (h : Built limit ts l k) (a b : List Pkt) (p : Pkt) (e : k = a ++ p :: b)
    (hs : p.ty = .short) : b = [] := by
  induction h generalizing a with
  | nil => cases a <;> cases e
  | last t ts l q hq =>
    cases a with
    | nil => injection e with _ e; exact e.symm
    | cons c a => injection e with _ e; cases a <;> cases e
  | cons t ts l q k hq hs' ht hk ih =>
    cases a with
    | nil => injection e with e1 e2; subst e1; exact absurd hs hs'
    | cons c a => injection e with _ e; exact ih a e

/-- No packet follows a 1-RTT packet. -/
theorem short_last {ts : List Turn} {limit : Nat} {d : Dgram} (hw : ∀ t ∈ ts, Wf t.x) (h : dgram ts limit = some (some d))
    (a b : List Pkt) (p : Pkt) (e : d.pkts = a ++ p :: b) (hs : p.ty = .short) : b = [] :=
  built_last (built hw h) a b p e hs

/-- Packets that have to be sent in datagrams of their own, or the next of which has to go elsewhere,
are the last. -/
theorem stops {ts : List Turn} {limit : Nat} {d : Dgram} (hw : ∀ t ∈ ts, Wf t.x) (h : dgram ts limit = some (some d)) (n : Nat)
    (hs : ∃ t, ts[n]? = some t ∧ t.stop = true) : d.pkts.length ≤ n + 1 := by
  have key : ∀ (ts : List Turn) (l k : List Pkt), Built limit ts l k → ∀ n, (∃ t, ts[n]? = some t ∧ t.stop = true) → k.length ≤ n + 1 := by
    intro ts l k hb
    induction hb with
    | nil => intro n _; simp
    | last => intro n _; simp
    | cons t ts l p k hq hs' ht hk ih =>
      intro n ⟨u, hu, hus⟩
      cases n with
      | zero => simp at hu; subst hu; rw [ht] at hus; cases hus
      | succ n => have := ih n ⟨u, by simpa using hu, hus⟩; simp; omega
  exact key _ _ _ (built hw h) n hs

theorem single_ty {x : In} {cap : Nat} {hi : Bool} {p : Pkt} (h : x.single cap hi = .ok p) : p.ty = x.ty := by
  obtain ⟨left, b, m⟩ := single_ok h
  rw [m.eq]

theorem built_tail {limit : Nat} {ts : List Turn} {l k : List Pkt} (h : Built limit ts l k) (a : List Pkt) (p : Pkt) (e : k = a ++ [p]) :
    ∃ t ∈ ts, t.x.single (limit - sizes (l ++ a)) ((l ++ a).any isInitial) = .ok p := by
  induction h generalizing a with
  | nil => cases a <;> cases e
  | last t ts l q hq =>
    cases a with
    | nil => injection e with e1 _; subst e1; exact ⟨t, List.mem_cons_self, by simpa using hq⟩
    | cons c a => injection e with _ e; cases a <;> cases e
  | cons t ts l q k hq hs' ht hk ih =>
    cases a with
    | nil => injection e with e1 _; subst e1; exact ⟨t, List.mem_cons_self, by simpa using hq⟩
    | cons c a =>
      injection e with e1 e2
      subst e1
      obtain ⟨u, hu, h⟩ := ih a e2
      exact ⟨u, List.mem_cons_of_mem _ hu, by simpa using h⟩

/-- If the window is not in the way, no zeros follow a 1-RTT packet, which has no length field and
would be spoilt by them. -/
theorem no_zeros_partial {ts : List Turn} {limit : Nat} {d : Dgram} (hw : ∀ t ∈ ts, Wf t.x) (h : dgram ts limit = some (some d))
    (hc : ∀ t ∈ ts, t.x.ty = .short → limit ≤ t.x.cwnd) (a : List Pkt) (p : Pkt) (e : d.pkts = a ++ [p]) (hs : p.ty = .short) : d.pad = 0 := by
  obtain ⟨left, h1, h2, _, h4⟩ := dgram_spec hw h
  obtain ⟨t, ht, hp⟩ := built_tail h2 a p e
  simp only [List.nil_append] at hp
  have hx : t.x.ty = .short := by rw [← single_ty hp]; exact hs
  rw [h4]
  split
  · rename_i c
    exfalso
    obtain ⟨c1, c2, c3⟩ := c
    have hia : a.any isInitial = true := by
      rw [e, List.any_append] at c1
      have : isInitial p = false := by simp [isInitial, hs]
      simpa [this] using c1
    have hsz : sizes d.pkts = sizes a + p.size := by rw [e, sizes_append, sizes_one]
    have hr := room_le t.x (limit - sizes a)
    have hl := hc t ht hx
    rcases filled (hw t ht) hp hx (.inl hia) (by omega) with g | g
    · obtain ⟨al, hal⟩ := (fits (hw t ht) hp).2.2 g
      have := (hw t ht).probe _ _ hal
      simp only [minInitial] at c3
      omega
    · revert g
      unfold room
      split
      · rename_i m hm
        have := (hw t ht).mtu m hm
        intro g
        simp only [minInitial] at c3
        omega
      · intro g; omega
  · rfl

/-- In general they do: with the window used up, a server that acknowledges Initial and 0-RTT packets
in one datagram appends more than 1000 zeros to the 1-RTT packet. -/
theorem zeros : ∃ ts d p, (∀ t ∈ ts, Wf t.x) ∧ dgram ts 1200 = some (some d) ∧ d.pkts = [p, { p with ty := .short, off := 10, frames := [6] }] ∧
    p.ty = .initial ∧ 1000 < d.pad := by
  refine ⟨[{ x := { ty := .initial, hdr := 24, cwnd := 0, ack := some (6, true) } }, { x := { ty := .short, hdr := 9, cwnd := 0, ack := some (6, true) } }],
    { pkts := [{ ty := .initial, off := 27, frames := [6], tag := 16, eliciting := false, inFlight := false, probe := false },
      { ty := .short, off := 10, frames := [6], tag := 16, eliciting := false, inFlight := false, probe := false }], pad := 1119 }, _, ?_, by decide +kernel, rfl, rfl, by decide⟩
  intro t ht
  simp only [List.mem_cons, List.mem_singleton, List.not_mem_nil, or_false] at ht
  rcases ht with rfl | rfl <;> exact ⟨by simp, by simp, by simp, by simp, by decide, by decide, by decide⟩

/-- With path MTU discovery, a datagram of one packet that is no probe is not larger than the MTU
found so far. -/
theorem mtu_partial {ts : List Turn} {limit m : Nat} {d : Dgram} {p : Pkt} (hw : ∀ t ∈ ts, Wf t.x) (hm : ∀ t ∈ ts, t.x.mtu = some m) (h1200 : 1200 ≤ m)
    (h : dgram ts limit = some (some d)) (e : d.pkts = [p]) (hp : p.probe = false) : d.size ≤ m := by
  obtain ⟨left, h1, h2, _, h4⟩ := dgram_spec hw h
  obtain ⟨t, ht, hs⟩ := built_tail h2 [] p e
  have := (fits (hw t ht) hs).2.1 hp m (hm t ht)
  have es : sizes d.pkts = p.size := by rw [e, sizes_one]
  have e2 : d.size = sizes d.pkts + d.pad := rfl
  rw [e2, h4, es]
  simp only [minInitial]
  split <;> omega

/-- With several packets it may be: a client that has completed the handshake sends its Handshake
packet and application data in a datagram that is larger than the MTU found so far, and is no probe.
(The limit is that of the next probe.) -/
theorem mtu_exceeded : ∃ ts d l, (∀ t ∈ ts, Wf t.x ∧ t.x.mtu = some 1200) ∧
    l = (({ mds := 1350, pmtud := some (Pmtud.new 1500 3) } : L).params 65527).limit 65535 true true none ∧
    dgram ts l.2 = some (some d) ∧ d.size = 1300 ∧ (∀ p ∈ d.pkts, p.probe = false) := by
  refine ⟨[{ x := { ty := .handshake, mtu := some 1200, hdr := 23, cwnd := 12000, pieces := [.data 8 4 54] } },
      { x := { ty := .short, mtu := some 1200, hdr := 9, cwnd := 12000, pieces := [.data 12 5 5000] } }],
    { pkts := [{ ty := .handshake, off := 26, frames := [58], tag := 16, eliciting := true, inFlight := true, probe := false },
      { ty := .short, off := 10, frames := [1174], tag := 16, eliciting := true, inFlight := true, probe := false }], pad := 0 }, _, ?_, rfl, by decide +kernel, by decide, by decide⟩
  intro t ht
  simp only [List.mem_cons, List.mem_singleton, List.not_mem_nil, or_false] at ht
  rcases ht with rfl | rfl <;> exact ⟨⟨by simp [Piece.Ok], by simp, by simp, by simp, by decide, by decide, by decide⟩, rfl⟩

/-! ### The limit -/

/-- The limit never exceeds the buffer nor what an unvalidated client may be sent; without a probe due
it is below 2^14. -/
theorem limit_le (l : L) (out : Nat) (e c : Bool) (budget : Option Nat) :
    (l.limit out e c budget).2 ≤ out ∧ (∀ n, budget = some n → (l.limit out e c budget).2 ≤ n) ∧
      ((∀ p, l.pmtud = some p → p.shouldProbe = false) → (l.limit out e c budget).2 ≤ 16383) := by
  have hm : l.maxUdp e ≤ 16383 := by unfold L.maxUdp; split <;> (try simp only [minInitial]) <;> omega
  have hb : (l.base out e c).2 ≤ out ∧ ((∀ p, l.pmtud = some p → p.shouldProbe = false) → (l.base out e c).2 ≤ 16383) := by
    unfold L.base
    split
    · rename_i p hp
      split
      · rename_i hsp
        refine ⟨Nat.min_le_left _ _, fun hh => ?_⟩
        rw [hh p hp] at hsp; cases hsp
      · exact ⟨Nat.min_le_left _ _, fun _ => Nat.le_trans (Nat.min_le_right _ _) hm⟩
    · exact ⟨Nat.min_le_left _ _, fun _ => Nat.le_trans (Nat.min_le_right _ _) hm⟩
  cases budget with
  | none => exact ⟨hb.1, by simp, hb.2⟩
  | some n =>
    refine ⟨Nat.le_trans (Nat.min_le_left _ _) hb.1, ?_, fun hh => Nat.le_trans (Nat.min_le_left _ _) (hb.2 hh)⟩
    intro k hk
    injection hk with hk
    subst hk
    exact Nat.min_le_right _ _

/-- What happens to the limit: the peer's parameters arrive, a datagram is to be sent, a probe goes
out, is acknowledged or lost (lib.rs:3528-3571, 4292-4301). -/
inductive Op where
  | params (peer : Nat)
  | send (out : Nat) (established completed : Bool) (budget : Option Nat)
  | probe
  | fate (size : Nat) (delivered : Bool)

def step (l : L) : Op → L
  | .params n => l.params n
  | .send o e c b => (l.limit o e c b).1
  | .probe => match l.pmtud with
    | some p => match p.sendProbe with
      | some (_, p) => { l with pmtud := some p }
      | none => l
    | none => l
  | .fate n d => match l.pmtud with
    | some p =>
      let p := p.report n d
      { l with pmtud := some p, mds := if d then (match p.success with | some g => g | none => l.mds) else l.mds }
    | none => l

def run (l : L) (ops : List Op) : L := ops.foldl step l

/-- Without path MTU discovery. -/
structure Plain (l : L) : Prop where
  none : l.pmtud = none
  peer : ∀ n, l.peer = some n → l.mds ≤ n

theorem plain_step {l : L} (h : Plain l) (op : Op) : Plain (step l op) := by
  have hn := h.none
  cases op with
  | params n =>
    refine ⟨hn, ?_⟩
    intro k hk
    simp only [step, L.params] at hk ⊢
    injection hk with hk
    subst hk
    rw [hn]; dsimp only; omega
  | send o e c b =>
    have : (l.limit o e c b).1 = l := by
      unfold L.limit L.base; rw [hn]; cases b <;> rfl
    show Plain (l.limit o e c b).1
    rw [this]; exact h
  | probe => unfold step; rw [hn]; exact h
  | fate n d => unfold step; rw [hn]; exact h

theorem plain_run {l : L} (h : Plain l) (ops : List Op) : Plain (run l ops) := by
  induction ops generalizing l with
  | nil => exact h
  | cons op ops ih => exact ih (plain_step h op)

/-- Without path MTU discovery, no datagram is larger than what the peer last declared to accept, once
it has (except that 1200 bytes are always allowed). -/
theorem peer_partial (mds : Nat) (ops : List Op) (peer : Nat) (hp : (run { mds } ops).peer = some peer) (out : Nat) (e c : Bool) (b : Option Nat) :
    ((run { mds } ops).limit out e c b).2 ≤ max peer 1200 := by
  have h := plain_run (l := { mds }) ⟨rfl, by simp⟩ ops
  have h1 := h.peer _ hp
  have h2 : (run { mds } ops).maxUdp e ≤ max peer 1200 := by
    unfold L.maxUdp; split <;> (try simp only [minInitial]) <;> omega
  unfold L.limit L.base
  rw [h.none]
  cases b <;> dsimp only <;> omega

/-- With path MTU discovery it is: the peer accepts 1200 bytes, and a probe of 1500 bytes is sent; if it is
answered nevertheless, all later datagrams may have 1500 bytes. -/
theorem peer_exceeded :
    (run { mds := 1500, pmtud := some (Pmtud.new 1500 3) } [.params 1200]).peer = some 1200 ∧
    ((run { mds := 1500, pmtud := some (Pmtud.new 1500 3) } [.params 1200]).limit 65535 true true none).2 = 1500 ∧
    (∃ p, In.single { ty := .short, mtu := some 1200, hdr := 9, cwnd := 12000, probe := some (1500, 12000) } 1500 false = .ok p ∧ p.size = 1500) ∧
    ((run { mds := 1500, pmtud := some (Pmtud.new 1500 3) } [.params 1200, .probe, .fate 1500 true]).limit 65535 true true none).2 = 1500 :=
  ⟨rfl, by decide +kernel, ⟨_, rfl, by decide⟩, by decide +kernel⟩

/-! ### DATAGRAM frames -/

/-- What is offered for a DATAGRAM can be sent: in a packet of its own, with buffer, MTU and window as large
as the maximum packet (at least 1200), a DATAGRAM of no more than `dgram_max_writable_len` bytes is sent whole. -/
theorem writable_fits_partial {x : In} {u d n k cap f : Nat} {hi : Bool} (hw : Wf x) (hu : 1200 ≤ u) (hn : writable u d x.tag f = some n) (hk : k ≤ n) (hs : x.ty = .short)
    (hh : x.hdr = 1 + d) (ha : x.ack = none) (hp : x.probe = none) (hr : u ≤ room x cap) (hc : u ≤ x.cwnd) (l : List Piece)
    (hl : x.pieces = .whole (3 + k) :: l) : ∃ p, x.single cap hi = .ok p ∧ ∃ r, p.frames = (3 + k) :: r := by
  have hpn := hw.pn
  have h41 := hw.overhead hs
  have ho : x.overhead + (3 + k) ≤ u := by
    unfold writable at hn
    dsimp only at hn
    split at hn
    · cases hn
    · injection hn with hn
      simp only [In.overhead, hs, if_true]
      omega
  obtain ⟨p, hp1⟩ := sends (hi := hi) hw (n := 3 + k) (by rw [hl]; exact List.mem_cons_self) ha hp (cap := cap) (by omega) (by omega)
  refine ⟨p, hp1, ?_⟩
  obtain ⟨left, b, m⟩ := single_ok hp1
  have hroom := m.room
  cases m.probed with
  | probe size allow c e => rw [hp] at e; cases e
  | plain =>
    have hcut := afterCut_spec x left
    have hfe : (afterCut x left).frames = [] := by
      rcases hcut.frames with h | ⟨k, d, hk, _⟩
      · exact h
      · rw [ha] at hk; cases hk
    have hleft := hcut.empty hfe
    have hb : (afterCut x left).piece (.whole (3 + k)) = (afterCut x left).pushE (3 + k) := by
      simp only [B.piece]; rw [if_pos (by omega)]
    have hg := (((grow_pieces l ((afterCut x left).pushE (3 + k)) fun q hq => hw.pieces q (by rw [hl]; exact List.mem_cons_of_mem _ hq)).trans
      (grow_ping _ x.ping)).trans (grow_fill _ ((hi || !x.validated) && x.ty = .short))).trans (grow_least _)
    obtain ⟨r, hr⟩ := hg.frames
    refine ⟨r, ?_⟩
    rw [m.eq]
    show (finish x (afterCut x left) hi).frames = _
    unfold finish
    rw [hl, List.foldl_cons, hb, hr]
    simp [B.pushE, B.push, hfe]

/-- A single frame that the MTU has no room for is not sent. -/
theorem too_large {x : In} {m k : Nat} (hw : Wf x) (hm : x.mtu = some m) (ha : x.ack = none) (hp : x.probe = none) (hg : x.ping = false)
    (hl : x.pieces = [.whole k]) (hk : m < x.overhead + k) (cap : Nat) (hi : Bool) : x.single cap hi = .done := by
  cases h : x.single cap hi with
  | done => rfl
  | panic =>
    exact absurd h (no_panic hw cap hi)
  | ok p =>
    exfalso
    obtain ⟨left, b, md⟩ := single_ok h
    have hroom := md.room
    have hle : room x cap ≤ m := by unfold room; rw [hm]; exact Nat.min_le_left _ _
    cases md.probed with
    | probe size allow c e => rw [hp] at e; cases e
    | plain =>
      have hcut := afterCut_spec x left
      have hne := md.any
      have hfe : (afterCut x left).frames = [] := by
        rcases hcut.frames with h | ⟨k, d, hk, _⟩
        · exact h
        · rw [ha] at hk; cases hk
      have hleft := hcut.empty hfe
      apply hne
      rw [hl, hg]
      simp only [List.foldl_cons, List.foldl_nil, B.piece]
      rw [if_neg (by omega)]
      simp [B.ping, hfe]

/-- With path MTU discovery it may not: while the maximum packet is that of a probe not yet answered, a DATAGRAM
of a length said to be writable goes into no packet, however large buffer and window are. -/
theorem writable_stuck : ∃ l : L × Nat, l = (({ mds := 1350, pmtud := some (Pmtud.new 1500 3) } : L).params 65527).limit 65535 true true none ∧
    writable (l.1.maxUdp true) 8 16 65535 = some 1468 ∧
    ∀ cap cwnd pnLen hi, pnLen ≤ 4 → In.single { ty := .short, mtu := some 1200, hdr := 9, pnLen, cwnd, pieces := [.whole (3 + 1468)] } cap hi = .done := by
  refine ⟨_, rfl, by decide +kernel, ?_⟩
  intro cap cwnd pnLen hi hpn
  exact too_large ⟨by simp [Piece.Ok], by simp, by simp, by simp, by simp, hpn, by simp⟩ rfl rfl rfl rfl rfl (by omega) cap hi

/-! ### Cases -/

/-- A client's first datagram: an Initial packet with 300 bytes of CRYPTO data, padded to 1200. -/
example : dgram [{ x := { ty := .initial, hdr := 24, cwnd := 12000, pieces := [.data 8 4 300] } }] 1350 =
    some (some { pkts := [{ ty := .initial, off := 27, frames := [304], tag := 16, eliciting := true, inFlight := true, probe := false }], pad := 853 }) := by
  decide +kernel

/-- A server's answer: Initial, Handshake and 1-RTT packet fill the datagram with PADDING frames. -/
example : dgram [{ x := { ty := .initial, hdr := 24, cwnd := 12000, ack := some (5, true), pieces := [.data 8 4 90] } },
      { x := { ty := .handshake, hdr := 23, cwnd := 12000, pieces := [.data 8 4 700] } },
      { x := { ty := .short, hdr := 9, cwnd := 12000, pieces := [.whole 1] } }] 1200 =
    some (some { pkts := [{ ty := .initial, off := 27, frames := [5, 94], tag := 16, eliciting := true, inFlight := true, probe := false },
      { ty := .handshake, off := 26, frames := [704], tag := 16, eliciting := true, inFlight := true, probe := false },
      { ty := .short, off := 10, frames := [1, 285], tag := 16, eliciting := true, inFlight := true, probe := false }], pad := 0 }) := by
  decide +kernel

/-- An ACK with the window used up, and a probe of 1500 bytes. -/
example : In.single { ty := .short, hdr := 9, cwnd := 0, ack := some (7, true), pieces := [.data 12 4 100] } 1350 false =
      .ok { ty := .short, off := 10, frames := [7], tag := 16, eliciting := false, inFlight := false, probe := false } ∧
    In.single { ty := .short, mtu := some 1200, hdr := 9, cwnd := 12000, probe := some (1500, 12000) } 1500 false =
      .ok { ty := .short, off := 10, frames := [1473, 1], tag := 16, eliciting := true, inFlight := true, probe := true } := by
  decide +kernel

end Verif.Props.C160
