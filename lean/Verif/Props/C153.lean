import Verif.Tq.Gather

/-! # C153 — packets handed over together leave as they were made -/

namespace Verif.Props.C153
open Verif.Tq

variable {σ : Type}

/-- The packets the connection makes in one gather, with their destinations. -/
def made (c : Source σ) (g : GCfg) (len : Nat) (s : σ) (w : WState) : List (List UInt8 × Nat) := (gather c.log g len (s, []) w).2.1.2

/-- What is sent to the network after it, with the destination. -/
def sent (c : Source σ) (g : GCfg) (len : Nat) (s : σ) (w : WState) (peer : Nat) : List (List UInt8) × Nat :=
  flush g (gather c g len s w).2.2 peer

theorem held {c : Source σ} (hc : c.Lawful) (g : GCfg) (len : Nat) (s : σ) (w : WState) :
    Holds (min maxGso len) (made c g len s w) (gather c g len s w).2.2 ∧ (gather c g len s w).2.2.num ≤ 64 ∧
    ∃ seg, Shape seg ((made c g len s w).map (·.1)) ∧ (gather c g len s w).2.2.seg = seg.getD (gather c g len s w).2.2.buf.length := by
  have h := loop_holds hc g (min maxGso len) (min maxGso len + 1) s [] { w with num := 0, buf := [], selected := none } none
    ⟨rfl, rfl, by simp, by simp, by simp, by simp⟩ (by simp) rfl
  obtain ⟨e1, e2, e3⟩ := log_gather c g len s w
  rw [← e3]
  obtain ⟨h1, h2, h3⟩ := h
  exact ⟨⟨h1.buf, h1.num, h1.sel, h1.none, h1.cap, h1.pos⟩, h2, _, h3, rfl⟩

/-- With segmentation offload or without: the datagrams on the wire are the packets of the connection, in order, none split, joined, lost
or repeated. -/
theorem datagrams_are_packets {c : Source σ} (hc : c.Lawful) (g : GCfg) (len : Nat) (s : σ) (w : WState) (peer : Nat)
    (hone : g.gso = false → (made c g len s w).length ≤ 1) :
    (sent c g len s w peer).1 = (made c g len s w).map (·.1) := by
  obtain ⟨h1, -, seg, h3, h4⟩ := held hc g len s w
  generalize hl : made c g len s w = l at *
  unfold sent flush
  dsimp only
  generalize (gather c g len s w).2.2 = v at *
  by_cases hb : v.buf = []
  · rw [if_pos hb]
    have : l = [] := by
      cases l with
      | nil => rfl
      | cons p t =>
        have := h1.pos p (by simp)
        have e := h1.buf
        rw [hb] at e
        simp at e
        simp [e.1] at this
    simp [this]
  rw [if_neg hb]
  have single : l.length ≤ 1 → l.map (·.1) = [v.buf] := by
    intro hle
    match l, hle with
    | [], _ => exact absurd (by simpa using h1.buf) hb
    | [p], _ =>
      have e := h1.buf
      simp at e
      simp [e]
  cases hgso : g.gso with
  | false =>
    simp only [Bool.false_eq_true, if_false]
    exact (single (hone hgso)).symm
  | true =>
    simp only [if_true]
    cases seg with
    | none =>
      rw [single (by simpa [Shape] using h3)]
      simp only [Option.getD_none] at h4
      rw [h4]
      cases hb2 : v.buf with
      | nil => exact absurd hb2 hb
      | cons x t => simp [cut]
    | some n =>
      obtain ⟨hn, a, b, e, ha, hb1, hb2⟩ := h3
      simp only [Option.getD_some] at h4
      rw [h4, h1.buf, e]
      exact cut_flatten hn a b ha hb1 hb2 _ (by omega)

/-- Without offload, or when one packet is asked for, there is at most one. -/
theorem one_packet {c : Source σ} (hc : c.Lawful) (g : GCfg) (len : Nat) (s : σ) (w : WState) (h : g.single = true ∨ g.gso = false) :
    (made c g len s w).length ≤ 1 := by
  unfold made gather
  dsimp only
  simp only [loop]
  rcases write_cases c.log (s, []) { w with num := 0, buf := [], selected := none } (min maxGso len) none with ⟨b, to, ⟨s', l'⟩, h1, h2⟩ | ⟨⟨s', l'⟩, h1, h2⟩ | ⟨⟨s', l'⟩, h1, h2⟩
  · have hl : l' = [(b, to)] ∧ 0 < b.length := by
      simp only [Source.log] at h1
      revert h1
      generalize hy : c.send s _ _ = y
      intro h1
      cases y <;> simp at h1
      obtain ⟨rfl, rfl, rfl, rfl⟩ := h1
      exact ⟨rfl, (hc.size _ _ _ _ _ _ hy).1⟩
    obtain ⟨rfl, hp⟩ := hl
    obtain ⟨n, hbn⟩ : ∃ n, b.length = n + 1 := ⟨b.length - 1, by omega⟩
    simp only [h2, hbn, if_pos h]
    simp
  · have hl : l' = [] := by
      simp only [Source.log] at h1
      revert h1
      generalize c.send s _ _ = y
      intro h1
      cases y <;> simp at h1
      exact h1.2
    simp [h2, hl]
  · have hl : l' = [] := by
      simp only [Source.log] at h1
      revert h1
      generalize c.send s _ _ = y
      intro h1
      cases y <;> simp at h1
      exact h1.2
    simp [h2, hl]

/-- So always. -/
theorem as_made {c : Source σ} (hc : c.Lawful) (g : GCfg) (len : Nat) (s : σ) (w : WState) (peer : Nat) :
    (sent c g len s w peer).1 = (made c g len s w).map (·.1) :=
  datagrams_are_packets hc g len s w peer (fun h => one_packet hc g len s w (.inr h))

/-- They all go where the connection wants them. -/
theorem one_destination {c : Source σ} (hc : c.Lawful) (g : GCfg) (len : Nat) (s : σ) (w : WState) (peer : Nat) :
    ∀ p ∈ made c g len s w, p.2 = (sent c g len s w peer).2 := by
  intro p hp
  obtain ⟨h1, -⟩ := held hc g len s w
  simp [sent, flush, h1.sel p hp]

/-- What the kernel allows: at most 64 datagrams and 65507 bytes at a time, and a segment size that fits 16 bits. -/
theorem within_limits {c : Source σ} (hc : c.Lawful) (g : GCfg) (len : Nat) (s : σ) (w : WState) :
    (made c g len s w).length ≤ 64 ∧ (gather c g len s w).2.2.buf.length ≤ 65507 ∧ (gather c g len s w).2.2.buf.length ≤ len ∧
    ((made c g len s w).length ≤ 1 ∨ (gather c g len s w).2.2.seg ≤ 65507) := by
  obtain ⟨h1, h2, seg, h3, h4⟩ := held hc g len s w
  have hc1 := h1.cap
  have hn := h1.num
  simp only [maxGso] at hc1
  refine ⟨by omega, by omega, by omega, ?_⟩
  cases seg with
  | none => left; simpa [Shape] using h3
  | some n =>
    obtain ⟨hn0, a, b, e, ha, hb, -⟩ := h3
    simp only [Option.getD_some] at h4
    rw [h4]
    cases a with
    | nil => left; simp at e; rw [← e] at hb; simpa using hb
    | cons x t =>
      right
      have hx := ha x (by simp)
      have hbuf := h1.buf
      rw [e] at hbuf
      have : x.length ≤ (gather c g len s w).2.2.buf.length := by rw [hbuf]; simp
      omega

/-- What C153 asks for besides: when the worker goes to sleep (nothing is pending), the connection has nothing to send, on any path. -/
def Quiet (c : Source σ) (g : GCfg) (len : Nat) (s : σ) (w : WState) : Prop :=
  (gather c g len s w).1 = some () → (gather c g len s w).2.2.pending = false →
    ∀ a ∈ c.paths (gather c g len s w).2.1, ∀ n, 0 < n → c.send (gather c g len s w).2.1 n (some a) = .done (gather c g len s w).2.1

/-- Proved for connections with one path whose packets can be cut anywhere (data of streams), or all have one size and no release times.
What is missing: other connections (see the three `_false`). -/
theorem quiet_partial {c : Source σ} (hc : c.Lawful) {m M a : Nat} (hm : c.Needs m M a) (g : GCfg) (hg : g.gcong = false ∨ m = 1) (len : Nat)
    (hM : 2 * M ≤ 65507) (hlen : 2 * M ≤ len) (hmM : m ≤ M) (s : σ) (w : WState) (hw : w.iter = []) : Quiet c g len s w := by
  intro h1 h2 x hx
  rw [hm.paths] at hx
  simp only [List.mem_singleton] at hx
  subst hx
  revert h1 h2
  unfold gather
  dsimp only
  generalize hl : loop c g (min maxGso len) (min maxGso len + 1) s { w with num := 0, buf := [], selected := none } none = r
  obtain ⟨r1, s', w', seg'⟩ := r
  dsimp only
  intro h1 h2
  subst h1
  exact loop_quiet hc hm g (by simp only [maxGso]; omega) (by simp only [maxGso]; omega) hg _ s { w with num := 0, buf := [], selected := none } none hw (by simp) rfl (by simp) hl h2

/-- And such a connection stays with its one path. -/
theorem iter_empty {c : Source σ} {a : Nat} (hp : ∀ s, c.paths s = [a]) (g : GCfg) (len : Nat) (s : σ) (w : WState) (hw : w.iter = []) :
    (gather c g len s w).2.2.iter = [] := by
  have sel : ∀ s w, w.iter = [] → (select c s w).2.iter = [] := by
    intro s w hw
    unfold select
    split
    · exact hw
    · simp [hw, hp s]
  have key : ∀ cap f s w seg, w.iter = [] → (loop c g cap f s w seg).2.2.1.iter = [] := by
    intro cap f
    induction f with
    | zero => intro s w seg hw; exact hw
    | succ f ih =>
      intro s w seg hw
      have hs := sel s w hw
      rcases write_cases c s w cap seg with ⟨b, to, s1, h1, h2⟩ | ⟨s1, h1, h2⟩ | ⟨s1, h1, h2⟩
      · simp only [loop, h2]
        cases b with
        | nil => exact hs
        | cons x b =>
          simp only [List.length_cons]
          split
          · exact hs
          split
          · exact hs
          cases seg with
          | none =>
            dsimp only
            split
            · exact hs
            · exact ih _ _ _ hs
          | some z =>
            dsimp only
            split
            · exact hs
            split
            · exact hs
            · exact ih _ _ _ hs
      · simp only [loop, h2]; exact hs
      · simp only [loop, h2]; exact hs
  exact key (min maxGso len) (min maxGso len + 1) s { w with num := 0, buf := [], selected := none } none hw

/-! ### Connections that want to send and are not asked -/

/-- A connection that sends datagrams of given sizes, each in a packet of its own, to given addresses, in order for each address. -/
def queue (ps : List Nat) : Source (List (Nat × Nat)) where
  send := fun s n to =>
    if n = 0 then .err s
    else
      match s.find? (fun x => to = some x.2) with
      | some x => if x.1 ≤ n ∧ 0 < x.1 then .pkt (List.replicate x.1 0) x.2 (s.erase x) else .done s
      | none => .done s
  paths := fun _ => ps
  quantum := fun _ => 100000
  burst := fun _ => true

/-- Not a packet. -/
def isDone {σ : Type} : Sent σ → Bool
  | .done _ => true
  | _ => false

theorem queue_lawful (ps : List Nat) : (queue ps).Lawful := by
  constructor
  · intro s n to b to' s' h
    simp only [queue] at h
    repeat' split at h
    · cases h
    · rename_i hx
      injection h with h1 h2 h3
      subst h1
      simp [hx.1, hx.2]
    · cases h
    · cases h
  · intro s n a b to' s' h
    simp only [queue] at h
    split at h
    · cases h
    split at h
    · rename_i x hx
      split at h
      · injection h with _ h2 _
        have := List.find?_some hx
        simp at this
        rw [← h2, ← this]
      · cases h
    · cases h
  · intro s to; simp [queue]

/-- A datagram of 300 bytes, then one of 1100: after the first, only 300 bytes of room are offered, and the second has to wait for the next
event although there is nothing to wait for. -/
theorem small_first_false : ¬ Quiet (queue [1]) {} 65536 [(300, 1), (1100, 1)] {} := by
  intro h
  have := h (by decide +kernel) (by decide +kernel) 1 (by decide) 1200 (by decide)
  have e : (gather (queue [1]) {} 65536 [(300, 1), (1100, 1)] {}).2.1 = [(1100, 1)] := by decide +kernel
  rw [e] at this
  exact absurd (congrArg isDone this) (by decide +kernel)

/-- With release times (`gcongestion`), datagrams of 1300 bytes: the room left at the end of the buffer is too small for the 51st, and the
others have to wait. -/
theorem tail_false : ¬ Quiet (queue [1]) { gcong := true } 65536 (List.replicate 60 (1300, 1)) {} := by
  intro h
  have := h (by decide +kernel) (by decide +kernel) 1 (by decide) 1300 (by decide)
  have e : (gather (queue [1]) { gcong := true } 65536 (List.replicate 60 (1300, 1)) {}).2.1 = List.replicate 10 (1300, 1) := by decide +kernel
  rw [e] at this
  exact absurd (congrArg isDone this) (by decide +kernel)

/-- Two paths, one of them with nothing to send: it is asked last. -/
theorem two_paths_false : ¬ Quiet (queue [1, 2]) {} 65536 [(1200, 1)] { iter := [2] } := by
  intro h
  have := h (by decide +kernel) (by decide +kernel) 1 (by decide) 1200 (by decide)
  have e : (gather (queue [1, 2]) {} 65536 [(1200, 1)] { iter := [2] }).2.1 = [(1200, 1)] := by decide +kernel
  rw [e] at this
  exact absurd (congrArg isDone this) (by decide +kernel)

/-- Such a state arises: the first path fills a buffer, the second is asked, and the worker sleeps with the rest of the first unsent. -/
theorem two_paths_reached :
    let r := gather (queue [1, 2]) {} 65536 (List.replicate 60 (1200, 1)) {}
    r.2.2.pending = true ∧ r.2.2.iter = [2] ∧ r.2.1 = List.replicate 6 (1200, 1) ∧
    (gather (queue [1, 2]) {} 65536 r.2.1 r.2.2).2.2.pending = false ∧ (gather (queue [1, 2]) {} 65536 r.2.1 r.2.2).2.1 = List.replicate 6 (1200, 1) := by
  decide +kernel

/-- The last gather of a connection is for one path only: a closing packet for the other is not sent. -/
theorem close_false : (sent (queue [1, 2]) {} 1500 [(100, 2)] {} 2).1 = [] ∧ (queue [1, 2]).send [(100, 2)] 1500 (some 2) ≠ .done [(100, 2)] := by
  exact ⟨by decide +kernel, fun h => absurd (congrArg isDone h) (by decide +kernel)⟩

/-- The same connection with paths that come and go; to ask for one that is gone is an error (quiche/src/lib.rs:3996-4000, 4402). -/
def moving : Source (List Nat × List (Nat × Nat)) where
  send := fun s n to =>
    match to with
    | some a =>
      if a ∈ s.1 then
        match (queue s.1).send s.2 n to with
        | .pkt b t l => .pkt b t (s.1, l)
        | .done l => .done (s.1, l)
        | .err l => .err (s.1, l)
      else .err s
    | none => .err s
  paths := fun s => s.1
  quantum := fun _ => 100000
  burst := fun _ => true

/-- A path goes away while it waits for its turn: the worker asks for it all the same and takes the error for one of the connection, which it
closes, although every path the connection has works. -/
theorem stale_false :
    let r := gather moving {} 65536 ([1, 2], List.replicate 60 (1200, 1)) {}
    r.2.1.1 = [1, 2] ∧ r.2.2.pending = true ∧ (gather moving {} 65536 ([1], r.2.1.2) r.2.2).1 = none ∧
    (gather moving {} 65536 ([1], r.2.1.2) {}).1 = some () := by
  decide +kernel

/-! ### A gather -/

/-- Three full packets and a shorter one make one buffer; what follows waits for the next. -/
example : (made (queue [1]) {} 65536 [(1200, 1), (1200, 1), (1200, 1), (700, 1), (1200, 1)] {}).map (·.1.length) = [1200, 1200, 1200, 700] ∧
    (sent (queue [1]) {} 65536 [(1200, 1), (1200, 1), (1200, 1), (700, 1), (1200, 1)] {} 9).1.map (·.length) = [1200, 1200, 1200, 700] ∧
    (sent (queue [1]) {} 65536 [(1200, 1), (1200, 1), (1200, 1), (700, 1), (1200, 1)] {} 9).2 = 1 := by
  decide +kernel

/-- Small packets are not collected: the second is the last. -/
example : (made (queue [1]) {} 65536 (List.replicate 9 (500, 1)) {}).length = 2 := by decide +kernel

/-- A connection that cuts its data (so many bytes of a stream) to any size up to 1200. -/
def bytes : Source Nat where
  send := fun s n to =>
    if n = 0 then .err s
    else if s = 0 ∨ to ≠ some 1 then .done s
    else .pkt (List.replicate (min s (min n 1200)) 0) 1 (s - min s (min n 1200))
  paths := fun _ => [1]
  quantum := fun _ => 20000
  burst := fun _ => true

theorem bytes_needs : bytes.Lawful ∧ bytes.Needs 1 1200 1 := by
  refine ⟨⟨?_, ?_, ?_⟩, by decide, ?_, ?_, fun _ => rfl⟩
  · intro s n to b to' s' h
    simp only [bytes] at h
    split at h
    · cases h
    split at h
    · cases h
    · injection h with h1; subst h1; simp; omega
  · intro s n a b to' s' h
    simp only [bytes] at h
    split at h
    · cases h
    split at h
    · cases h
    · rename_i h1
      injection h with _ h2 _
      simp at h1
      omega
  · intro s to; simp [bytes]
  · intro s n to s' hn h
    simp only [bytes] at h
    split at h
    · cases h
    split at h
    · rename_i h1
      injection h with h
      refine ⟨h.symm, fun n' hn' => ?_⟩
      simp only [bytes]
      rw [if_neg (by omega), if_pos h1]
    · cases h
  · intro s n to b to' s' h
    simp only [bytes] at h
    split at h
    · cases h
    split at h
    · cases h
    · injection h with h1; subst h1; simp; omega

example : Quiet bytes { gcong := true } 65536 5000 {} := quiet_partial bytes_needs.1 bytes_needs.2 _ (.inr rfl) _ (by decide) (by decide) (by decide) _ _ rfl
example : (gather bytes {} 65536 5000 {}).2.2.buf.length = 5000 ∧ (gather bytes {} 65536 5000 {}).2.2.pending = true := by decide +kernel

end Verif.Props.C153
