import Verif.Conn.Serve

/-! # C25 — a finished stream never comes back to life -/

namespace Verif.C25
open Verif Stream Verif.Conn Verif.Conn.Conn

/-- The stream is gone: it does not exist, it is known to have existed, and no queue
has it. -/
structure Gone (c : Conn) (id : Nat) : Prop where
  none : c.get id = none
  collected : c.isCollected id = true
  readable : linked c.readable id = false
  writable : linked c.writable id = false
  flushable : linked c.flushable id = false

theorem inv_gone {c : Conn} {h : Hist} {gone : List Nat} (hI : Inv c h gone) {id : Nat} (hid : id ∈ gone) :
    Gone c id := by
  obtain ⟨s, hs⟩ := hI.gone id hid
  have hn : c.get id = none := by
    cases hg : c.get id with
    | none => rfl
    | some s' =>
      have h1 : id ∈ Assoc.keys c.streams := Assoc.get_some_keys hg
      exact absurd (Assoc.get_some_keys hs) (hI.shape.wf.disj id h1)
  exact ⟨hn, by unfold isCollected; rw [hs]; rfl, (linked_false_iff _ _).mpr (hI.shape.readable.not_linked hn),
    (linked_false_iff _ _).mpr (hI.shape.writable.not_linked hn),
    (linked_false_iff _ _).mpr (hI.shape.flushable.not_linked hn)⟩

/-- **C25.** Once a stream has been collected, it stays gone: after any further history it
neither exists nor is it readable, writable or flushable. -/
theorem stays_gone (g : Config) (hd : 0 < g.factorDen) (a b : List Op) (hok : ∀ op ∈ a ++ b, op.Ok)
    (hcr : (after g (a ++ b)).crashed = false) (id : Nat) (hc : (after g a).isCollected id = true) :
    Gone (after g (a ++ b)) id := by
  rw [after_append] at hcr ⊢
  rcases after_inv g hd (fun op ho => hok op (List.mem_append_left _ ho)) with hI | hx
  · have hI2 : Inv (after g a) (books g a) [id] := by
      refine { hI with gone := ?_ }
      intro i hi
      rw [List.mem_singleton.mp hi]
      exact Option.isSome_iff_exists.mp hc
    rcases run_reach hI2 (fun op ho => hok op (List.mem_append_right _ ho)) with h1 | h1
    · exact inv_gone h1 (List.mem_singleton_self id)
    · rw [hcr] at h1; cases h1
  · rw [(run_crashed hx b).1] at hcr; rw [hcr] at hx; cases hx

/-- **C25.** What an observer sees of a stream that is gone: frames for it are ignored or,
if the peer may never send them on such a stream, close the connection; application calls
fail; it is never reported as readable or writable, and no STREAM frame is sent for it. -/
theorem gone_is_silent (c : Conn) (id : Nat) (hg : Gone c id) (hr : (c.flushable.map (·.id)).Nodup) :
    (∀ off data fin, (c.step (.recvStream id off data fin)).2 ∈ [.ignored, .idle, .panic, .closed (.q (.invalidStreamState id))]) ∧
    (∀ code F, (c.step (.recvReset id code F)).2 ∈ [.ignored, .idle, .panic, .closed (.q (.invalidStreamState id))]) ∧
    (∀ code, (c.step (.recvStop id code)).2 ∈ [.ignored, .idle, .closed (.q (.invalidStreamState id))]) ∧
    (∀ m, (c.step (.recvMaxStreamData id m)).2 ∈ [.ignored, .idle, .closed (.q (.invalidStreamState id))]) ∧
    (∀ data fin, (c.step (.send id data fin)).2 ∈ [.err .done, .idle, .panic, .err (.invalidStreamState id)]) ∧
    (∀ cap, (c.step (.recv id cap)).2 ∈ [.idle, .err (.invalidStreamState id)]) ∧
    (c.step .readableNext).2 ≠ .next (some id) ∧
    (c.step .writableNext).2 ≠ .next (some id) ∧
    (∀ left off data fin, (c.step (.outStream left)).2 ≠ .sentStream id off data fin) := by
  have e : ∀ loc, c.getOrCreate id loc = .error .done := by
    intro loc; unfold getOrCreate; rw [hg.none, hg.collected]; rfl
  refine ⟨?_, ?_, ?_, ?_, ?_, ?_, ?_, ?_, ?_⟩
  · intro off data fin
    unfold step; split
    · simp
    · simp only; unfold recvStream; split
      · simp [close]
      · split
        · simp [die]
        · simp only [e]; simp
  · intro code F
    unfold step; split
    · simp
    · simp only; unfold recvReset; split
      · simp [close]
      · split
        · simp [die]
        · simp only [e]; simp
  · intro code
    unfold step; split
    · simp
    · simp only; unfold recvStop; split
      · simp [close]
      · simp only [e]; simp
  · intro m
    unfold step; split
    · simp
    · simp only; unfold recvMaxStreamData; split
      · simp [close]
      · simp only [e]; simp
  · intro data fin
    unfold step; split
    · simp
    · simp only; unfold sendData; split
      · simp
      · split
        · simp [die]
        · have : ∀ b, ({ c with blockedLimit := b } : Conn).getOrCreate id true = .error .done := by
            intro b
            have h1 : ({ c with blockedLimit := b } : Conn).get id = none := hg.none
            have h2 : ({ c with blockedLimit := b } : Conn).isCollected id = true := hg.collected
            unfold getOrCreate; rw [h1, h2]; rfl
          have hb : ∃ b, (if c.maxTxData - c.txData < data.length then { c with blockedLimit := some c.maxTxData } else c) =
              ({ c with blockedLimit := b } : Conn) := by
            split
            · exact ⟨_, rfl⟩
            · exact ⟨c.blockedLimit, rfl⟩
          obtain ⟨b, hb⟩ := hb
          simp only
          rw [hb, this b]; simp
  · intro cap
    unfold step; split
    · simp
    · simp only; unfold recvData; split
      · simp
      · simp only [hg.none]; simp
  · unfold step; split
    · simp
    · have hr := hg.readable
      simp only; unfold readableNext
      cases hq : c.readable with
      | nil => simp
      | cons k t =>
        simp only [ne_eq, Ev.next.injEq, Option.some.injEq]
        intro hk
        rw [hq] at hr
        simp [linked, hk] at hr
  · unfold step; split
    · simp
    · have hr := hg.writable
      simp only; unfold writableNext
      split
      · simp
      · cases hq : c.nextWritable c.writable with
        | none => simp
        | some i =>
          simp only [ne_eq, Ev.next.injEq, Option.some.injEq]
          rintro rfl
          obtain ⟨pre, k, post, e1, e2, -⟩ := nextWritable_first c _ _ hq
          rw [linked_false_iff, e1] at hr
          exact hr (by simp [e2])
  · intro left off data fin
    unfold step; split
    · simp
    · have hr' := hg.flushable
      simp only; unfold outStream
      split
      · intro hs
        obtain ⟨pre, k, post, e1, e2, -⟩ := outStreamLoop_first left _ c
          (outStreamLoop left c.flushable.length c).1 id off data fin hr (by rw [← hs])
        rw [linked_false_iff, e1] at hr'
        exact hr' (by simp [e2])
      · simp

/-- Both together: after a stream has been collected, no later operation of any kind
brings it back to the application or to the peer. -/
theorem later_silent (g : Config) (hd : 0 < g.factorDen) (a b : List Op) (hok : ∀ op ∈ a ++ b, op.Ok)
    (id : Nat) (hc : (after g a).isCollected id = true) :
    ((after g (a ++ b)).step .readableNext).2 ≠ .next (some id) ∧
    ((after g (a ++ b)).step .writableNext).2 ≠ .next (some id) ∧
    (∀ left off data fin, ((after g (a ++ b)).step (.outStream left)).2 ≠ .sentStream id off data fin) ∧
    (∀ data fin n, ((after g (a ++ b)).step (.send id data fin)).2 ≠ .n n) ∧
    (∀ cap data fin, ((after g (a ++ b)).step (.recv id cap)).2 ≠ .got data fin) := by
  cases hcr : (after g (a ++ b)).crashed with
  | true =>
    have : ∀ op, ((after g (a ++ b)).step op).2 = .idle := by
      intro op; unfold step; rw [hcr]; rfl
    simp [this]
  | false =>
    have hg := stays_gone g hd a b hok hcr id hc
    rcases after_inv g hd hok with hI | hx
    · obtain ⟨-, -, -, -, h5, h6, h7, h8, h9⟩ := gone_is_silent _ id hg hI.shape.flushable.ord.nd
      refine ⟨h7, h8, h9, ?_, ?_⟩
      · intro data fin n hn
        have := h5 data fin
        rw [hn] at this; simp at this
      · intro cap data fin hn
        have := h6 cap
        rw [hn] at this; simp at this
    · rw [hcr] at hx; cases hx

/-- A server: the stream is received, answered, acknowledged and thereby collected; then a
late duplicate and a late STOP_SENDING are ignored and writes fail. -/
example : ((start { isServer := true, loc := { bidiRemote := 100 }, maxData := 100, maxStreamsBidi := 9 }).run
      [.peerParams { bidiLocal := 100 } 10 1 0 50, .recvStream 0 0 [1, 2] true, .recv 0 100, .send 0 [3] true,
       .outStream 100, .acked 0, .recvStream 0 0 [1, 2] true, .recvStop 0 5, .send 0 [1] false, .lost 0,
       .writableNext, .outStream 100]).2.map (·.2) =
    [.ok, .ok, .got [1, 2] true, .n 1, .sentStream 0 0 [3] true, .ok, .ignored, .ignored, .err .done, .ok, .next none,
     .idle] := by decide

end Verif.C25
