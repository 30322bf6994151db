import Verif.Conn.Debt

/-! # C127 — limits and abort signals that are lost are sent again -/

namespace Verif.Props.C127
open Verif Verif.Stream Verif.Conn Verif.Conn.Conn

/-- The connection is neither closing because of an error nor has it panicked. -/
def Alive (g : Config) (ops : List Op) : Prop := (after g ops).crashed = false ∧ (after g ops).dead = false

theorem facts {g : Config} {ops : List Op} (hd : 0 < g.factorDen) (hok : ∀ op ∈ ops, op.Ok) (ha : Alive g ops) :
    Inv (after g ops) (books g ops) [] ∧ SL (after g ops) (limits g ops) ∧ Ctl (after g ops) (owed g ops) := by
  obtain ⟨hcr, -⟩ := ha
  refine ⟨?_, ?_, ?_⟩
  · rcases after_inv g hd hok with h | h
    · exact h
    · rw [hcr] at h; cases h
  · rcases (after_sl g hd hok).1 with h | h
    · exact h
    · rw [hcr] at h; cases h
  · obtain ⟨c', h1, h2⟩ := owed_ctl g hd hok
    rcases h2 with h | h
    · rw [hcr] at h; cases h
    · exact h ▸ h1

theorem step_eq {g : Config} {ops : List Op} (ha : Alive g ops) (op : Op) :
    ¬ ((after g ops).crashed || ((after g ops).dead && Op.needsAlive op)) = true := by
  rw [ha.1, ha.2]; simp

/-- **C127**, MAX_DATA: after one is lost, and until one is sent, a packet with room gets
one, with a limit not below any advertised before. -/
theorem max_data (g : Config) (hd : 0 < g.factorDen) (ops : List Op) (hok : ∀ op ∈ ops, op.Ok) (ha : Alive g ops)
    (ho : (owed g ops).data = true) (now rtt : Nat) :
    ∃ m, ((after g ops).step (.outMaxData now rtt true)).2 = .sentMaxData m ∧ (books g ops).advData ≤ m := by
  obtain ⟨hI, -, hC⟩ := facts hd hok ha
  have hR := hI.rx ha.2
  have hle := hR.le
  have hlim := hR.lim
  have hs := hC.data ho
  have hra := hR.md (.inl hs)
  unfold step
  rw [if_neg (step_eq ha _)]
  simp only [outMaxData]
  rw [← hI.advData ha.2]
  generalize after g ops = c at *
  have hsu : ∃ u, c.fc.shouldUpdateMaxData = some u := by
    unfold FlowControl.shouldUpdateMaxData; rw [if_neg (by omega)]; exact ⟨_, rfl⟩
  obtain ⟨u, hu⟩ := hsu
  rw [hu]
  simp only
  unfold Raises at hra
  have hf : ∃ f : FlowControl, (if (u && decide (c.fc.maxData < c.fc.maxDataNext)) = true then
      { c with fc := c.fc.autotuneWindow now rtt, shouldSendMaxData := true } else c) =
      { c with fc := f, shouldSendMaxData := true } ∧ c.fc.maxData ≤ f.maxDataNext := by
    split
    · obtain ⟨a1, a2, a3, a4⟩ := autotune_spec c.fc now rtt hR.win
      refine ⟨_, rfl, ?_⟩
      simp only [FlowControl.maxDataNext]
      omega
    · exact ⟨c.fc, by rw [← hs], hra⟩
  obtain ⟨f, e, hf⟩ := hf
  rw [e]
  exact ⟨_, rfl, hf⟩

/-- **C127**, MAX_STREAMS. -/
theorem max_streams (g : Config) (hd : 0 < g.factorDen) (ops : List Op) (hok : ∀ op ∈ ops, op.Ok) (ha : Alive g ops)
    (b : Bool) (ho : (owed g ops).str b = true) :
    ∃ m, ((after g ops).step (.outMaxStreams b true)).2 = .sentMaxStreams m ∧ (books g ops).adv b ≤ m := by
  obtain ⟨hI, -, hC⟩ := facts hd hok ha
  have hs := hC.str b ho
  have hn := hI.shape.wf.next b
  unfold step
  rw [if_neg (step_eq ha _), ← hI.adv b]
  simp only [outMaxStreams]
  unfold flag at hs
  rw [hs]
  simp only [Bool.or_true, if_true]
  exact ⟨_, rfl, hn⟩

/-- **C127**, MAX_STREAM_DATA, unless the stream is finished and gone. -/
theorem max_stream_data (g : Config) (hd : 0 < g.factorDen) (ops : List Op) (hok : ∀ op ∈ ops, op.Ok) (ha : Alive g ops)
    (id : Nat) (ho : (owed g ops).sd id = true) (hl : (after g ops).isCollected id = false) (now rtt : Nat) :
    ∃ m, ((after g ops).step (.outMaxStreamData id now rtt true)).2 = .sentMaxStreamData m ∧ (limits g ops).rx id ≤ m := by
  obtain ⟨hI, hS, hC⟩ := facts hd hok ha
  obtain ⟨h1, h2⟩ := hC.sd id ho
  have hm : id ∈ (after g ops).almostFull := by
    rcases h2 with h | h
    · exact h
    · rw [hl] at h; cases h
  unfold step
  rw [if_neg (step_eq ha _)]
  have hra := fun m => outMaxStreamData_raises (m := m) hI ha.2 hS (id := id) (now := now) (rtt := rtt) (fits := true)
  have hR := hI.rx ha.2
  generalize after g ops = c at *
  suffices h : ∃ m, (c.outMaxStreamData id now rtt true).2 = .sentMaxStreamData m by
    obtain ⟨m, hm⟩ := h
    exact ⟨m, hm, hra m hm⟩
  unfold outMaxStreamData
  rw [if_neg (by simpa using hm)]
  cases hg : c.get id with
  | none => rw [look_collected h1 hg] at hl; cases hl
  | some s =>
    obtain ⟨af, haf, -⟩ := RecvBuf.almostFull_of (hR.live id s hg).inv
    simp only
    rw [haf]
    exact ⟨_, rfl⟩

/-- **C127**, RESET_STREAM: it gives the same final size as every RESET_STREAM and every
end of the stream sent before, and no data beyond it was sent. -/
theorem reset (g : Config) (hd : 0 < g.factorDen) (ops : List Op) (hok : ∀ op ∈ ops, op.Ok) (ha : Alive g ops)
    (id : Nat) (ho : (owed g ops).rs id = true) :
    ∃ code F, ((after g ops).step (.outReset id true)).2 = .sentReset code F ∧
      (∀ code' F', Frame.reset id code' F' ∈ (owed g ops).log → F' = F) ∧
      (∀ off len, Frame.stream id off len true ∈ (owed g ops).log → off + len = F) ∧
      ∀ off len fin, Frame.stream id off len fin ∈ (owed g ops).log → off + len ≤ F := by
  obtain ⟨hI, -, hC⟩ := facts hd hok ha
  obtain ⟨⟨code, F⟩, hp⟩ := Option.isSome_iff_exists.1 (hC.rs id ho)
  refine ⟨code, F, ?_, ?_⟩
  · unfold step
    rw [if_neg (step_eq ha _)]
    simp only [outReset, hp, if_true]
  · rw [hC.log]
    obtain ⟨s, h1, h2, h3⟩ := hC.fsize id code F (.inr (Assoc.get_some_mem hp))
    refine ⟨fun c' F' hm => ?_, fun off len hm => ?_, fun off len fin hm => ?_⟩
    · obtain ⟨s', h1', h2', -⟩ := hC.fsize id c' F' (.inl hm)
      rw [h1] at h1'; cases h1'
      rw [h2] at h2'; cases h2'; rfl
    · obtain ⟨s', h1', h2', -⟩ := hC.ffin id off len hm
      rw [h1] at h1'; cases h1'
      rw [h2] at h2'; cases h2'; rfl
    · obtain ⟨s', h1', h2'⟩ := hC.fdat id off len fin hm
      rw [h1] at h1'; cases h1'
      omega

/-- **C127**, STOP_SENDING, with the same error code. -/
theorem stop (g : Config) (hd : 0 < g.factorDen) (ops : List Op) (hok : ∀ op ∈ ops, op.Ok) (ha : Alive g ops)
    (id : Nat) (ho : (owed g ops).st id = true) :
    ∃ code, ((after g ops).step (.outStop id true)).2 = .sentStop code ∧
      ∀ code', Frame.stop id code' ∈ (owed g ops).log → code' = code := by
  obtain ⟨hI, -, hC⟩ := facts hd hok ha
  obtain ⟨code, hp⟩ := Option.isSome_iff_exists.1 (hC.st id ho)
  refine ⟨code, ?_, ?_⟩
  · unfold step
    rw [if_neg (step_eq ha _)]
    simp only [outStop, hp, if_true]
  · rw [hC.log]
    exact fun c' hm => hC.code id c' code (.inl hm) (.inr (Assoc.get_some_mem hp))

/-- While anything is owed, the connection wants to send a packet. -/
theorem wants_to_send (g : Config) (hd : 0 < g.factorDen) (ops : List Op) (hok : ∀ op ∈ ops, op.Ok) (ha : Alive g ops)
    (ho : (owed g ops).data = true ∨ (∃ b, (owed g ops).str b = true) ∨
      (∃ id, (owed g ops).sd id = true ∧ (after g ops).isCollected id = false) ∨
      (∃ id, (owed g ops).rs id = true) ∨ ∃ id, (owed g ops).st id = true) :
    (after g ops).wants = some true := by
  obtain ⟨hI, -, hC⟩ := facts hd hok ha
  have hR := hI.rx ha.2
  have hle := hR.le
  have hlim := hR.lim
  have ne : ∀ {α : Type} {m : List (Nat × α)} {k : Nat}, (Assoc.get m k).isSome = true → m.isEmpty = false := by
    intro α m k h
    cases m with
    | nil => cases h
    | cons => rfl
  unfold wants FlowControl.shouldUpdateMaxData
  rw [if_neg (by omega)]
  simp only [Option.some.injEq]
  rcases ho with h | ⟨b, h⟩ | ⟨id, h, hl⟩ | ⟨id, h⟩ | ⟨id, h⟩
  · simp [hC.data h]
  · have := hC.str b h
    cases b <;> simp [flag] at this <;> simp [this]
  · rcases (hC.sd id h).2 with h1 | h1
    · have : (after g ops).almostFull.isEmpty = false := by
        cases hm : (after g ops).almostFull with
        | nil => rw [hm] at h1; cases h1
        | cons => rfl
      simp [this]
    · rw [hl] at h1; cases h1
  · simp [ne (hC.rs id h)]
  · simp [ne (hC.st id h)]

/-- An application that reads too slowly for a limit, resets one stream, stops reading
another; everything is lost. -/
def busy : List Op := [.peerParams { uni := 100, bidiLocal := 100, bidiRemote := 100 } 1000 10 10 1000,
  .recvStream 0 0 [1, 2, 3, 4, 5, 6, 7, 8] false, .recv 0 8,
  .recvStream 4 0 [1] false, .send 4 [7, 8, 9] false, .outStream 100, .shutRead 4 21, .shutWrite 4 22 1000,
  .outMaxData 0 0 true, .outMaxStreamData 0 0 0 true, .outStop 4 true, .outReset 4 true,
  .lost 1, .lost 2, .lost 3, .lost 4]

def cfg : Config :=
  { isServer := true, loc := { bidiRemote := 10 }, maxData := 12, maxWindow := 100, maxStreamsBidi := 4, maxStreamWindow := 100 }

example : ((start cfg).run busy).2.map (·.2) = [.ok, .ok, .got [1, 2, 3, 4, 5, 6, 7, 8] false, .ok, .n 3,
    .sentStream 4 0 [7, 8, 9] false, .ok, .ok, .sentMaxData 21, .sentMaxStreamData 18, .sentStop 21, .sentReset 22 3,
    .ok, .ok, .ok, .ok] := by decide +kernel

example : (owed cfg busy).data = true ∧ (owed cfg busy).sd 0 = true ∧ (owed cfg busy).st 4 = true ∧
    (owed cfg busy).rs 4 = true := by decide +kernel

/-- All four are sent again, unchanged or with a higher limit. -/
example : (((after cfg busy).run [.outMaxData 1 0 true, .outMaxStreamData 0 1 0 true, .outStop 4 true, .outReset 4 true]).2.map
    (·.2)) = [.sentMaxData 24, .sentMaxStreamData 18, .sentStop 21, .sentReset 22 3] := by decide +kernel

end Verif.Props.C127
