import Verif.Conn.Ends
import Verif.Props.C25

/-! # C190 — a stream reported as finished or closed stays so -/

namespace Verif.Props.C190
open Verif Stream Verif.Conn Verif.Conn.Conn

/-- The stream exists, or existed and is gone. -/
def Known (c : Conn) (id : Nat) : Prop := (c.get id).isSome = true ∨ c.isCollected id = true

/-- The end of a stream has arrived from the peer: the end flag, or a reset. -/
def EndSeen (id : Nat) (ops : List Op) : Prop :=
  (∃ off data, Op.recvStream id off data true ∈ ops) ∨ ∃ code F, Op.recvReset id code F ∈ ops

/-- The two states of a history, the first with its invariant, and what lies between. -/
theorem between (g : Config) (hd : 0 < g.factorDen) {a b : List Op} (hok : ∀ op ∈ a ++ b, op.Ok)
    (hcr : (after g (a ++ b)).crashed = false) :
    Inv (after g a) (books g a) [] ∧ Inv (after g (a ++ b)) (books g (a ++ b)) [] ∧
      Firm (fun id => ∃ op ∈ b, ends id op) (after g a) (after g (a ++ b)) := by
  have hI2 := (after_inv g hd hok).resolve_right (by rw [hcr]; simp)
  rw [after_append] at hcr ⊢
  rw [after_append] at hI2
  rcases after_inv g hd (fun op ho => hok op (List.mem_append_left _ ho)) with hI | hx
  · exact ⟨hI, hI2, run_firm hI (fun op ho => hok op (List.mem_append_right _ ho)) hcr⟩
  · rw [(run_crashed hx b).1] at hcr; rw [hcr] at hx; cases hx

/-- **C190.** A known stream that is reported as finished is reported so ever after, as long as
the connection is not closed by an error. -/
theorem finished_final (g : Config) (hd : 0 < g.factorDen) (a b : List Op) (hok : ∀ op ∈ a ++ b, op.Ok)
    (hcr : (after g (a ++ b)).crashed = false) (hdd : (after g (a ++ b)).dead = false) (id : Nat)
    (hk : Known (after g a) id) (hf : (after g a).finished id = true) : (after g (a ++ b)).finished id = true := by
  obtain ⟨-, -, hF⟩ := between g hd hok hcr
  cases hg : (after g a).get id with
  | none =>
    have hc : (after g a).isCollected id = true := by
      rcases hk with hk | hk
      · rw [hg] at hk; cases hk
      · exact hk
    unfold finished
    rw [(C25.stays_gone g hd a b hok hcr id hc).none]
  | some s =>
    obtain ⟨s', e, k⟩ := hF.look hdd id s (look_live hg)
    have h1 : s.recv.isFin = true := by unfold finished at hf; rw [hg] at hf; exact hf
    unfold finished
    cases hg' : (after g (a ++ b)).get id with
    | none => rfl
    | some t =>
      rw [look_live hg'] at e; cases e
      exact k.recv h1

/-- **C190.** A stream that is reported as closed is reported so ever after, as long as the
connection is not closed by an error. -/
theorem closed_final (g : Config) (hd : 0 < g.factorDen) (a b : List Op) (hok : ∀ op ∈ a ++ b, op.Ok)
    (hcr : (after g (a ++ b)).crashed = false) (hdd : (after g (a ++ b)).dead = false) (id : Nat)
    (hc : (after g a).closed id = true) : (after g (a ++ b)).closed id = true := by
  obtain ⟨hI, hI2, hF⟩ := between g hd hok hcr
  cases hg : (after g a).get id with
  | none =>
    unfold closed at hc
    rw [hg] at hc
    have h1 := C25.stays_gone g hd a b hok hcr id hc
    unfold closed
    rw [h1.none]; exact h1.collected
  | some s =>
    obtain ⟨s', e, k⟩ := hF.look hdd id s (look_live hg)
    unfold closed at hc ⊢
    rw [hg] at hc
    cases hg' : (after g (a ++ b)).get id with
    | none =>
      simp only
      unfold look at e
      rw [hg'] at e
      simp only at e
      unfold isCollected
      rw [e]; rfl
    | some t =>
      rw [look_live hg'] at e; cases e
      obtain ⟨W, hW⟩ := (hI2.tx.live id s' hg').inv
      have hs : s.send.isFin = true → s'.send.isFin = true := by
        intro h
        have h1 : s.send.finOff.isSome = true := by
          have : s.send.finOff = some s.send.off := by simpa [SendBuf.isFin] using h
          rw [this]; rfl
        obtain ⟨F, hF⟩ := Option.isSome_iff_exists.mp (k.send h1)
        simp [SendBuf.isFin, hF, hW.fin F hF]
      simp only at hc ⊢
      rw [k.bidi, k.loc]
      split at hc
      · simp only [Bool.and_eq_true] at hc ⊢
        exact ⟨k.recv hc.1, hs hc.2⟩
      · exact hs hc
      · exact k.recv hc

/-- **C190.** Nothing is read from a known stream once it has been reported as finished. -/
theorem finished_silent (g : Config) (hd : 0 < g.factorDen) (a b : List Op) (hok : ∀ op ∈ a ++ b, op.Ok)
    (hcr : (after g (a ++ b)).crashed = false) (hdd : (after g (a ++ b)).dead = false) (id : Nat)
    (hk : Known (after g a) id) (hf : (after g a).finished id = true) (cap : Nat) (data : Bytes) (fin : Bool)
    (he : ((after g (a ++ b)).step (.recv id cap)).2 = .got data fin) : data = [] := by
  have h1 := finished_final g hd a b hok hcr hdd id hk hf
  obtain ⟨-, hI, -⟩ := between g hd hok hcr
  generalize after g (a ++ b) = c at *
  unfold step at he
  split at he
  · cases he
  simp only at he
  unfold recvData at he
  split at he
  · cases he
  cases hg : c.get id with
  | none => rw [hg] at he; cases he
  | some s =>
    rw [hg] at he
    simp only at he
    have h2 : s.recv.isFin = true := by unfold finished at h1; rw [hg] at h1; exact h1
    have h3 := @RecvBuf.emit_nothing s.recv (Inv.rinv hI hdd hg) cap h2
    split at he
    · cases he
    · split at he
      · cases he
      · next out f r hr =>
        have h4 := h3 (out := out) (f := f) (by rw [hr])
        split at he
        · cases he
        · cases he; exact h4

/-- **C190.** Nothing is accepted for sending on a stream once it has been reported as closed. -/
theorem closed_silent (g : Config) (hd : 0 < g.factorDen) (a b : List Op) (hok : ∀ op ∈ a ++ b, op.Ok)
    (hcr : (after g (a ++ b)).crashed = false) (hdd : (after g (a ++ b)).dead = false) (id : Nat)
    (hc : (after g a).closed id = true) (data : Bytes) (fin : Bool) (n : Nat)
    (he : ((after g (a ++ b)).step (.send id data fin)).2 = .n n) : n = 0 := by
  have h1 := closed_final g hd a b hok hcr hdd id hc
  obtain ⟨-, hI, -⟩ := between g hd hok hcr
  generalize after g (a ++ b) = c at *
  unfold step at he
  split at he
  · cases he
  simp only at he
  unfold sendData at he
  split at he
  · cases he
  next hdir =>
  split at he
  · cases he
  simp only at he
  have hb : ∃ b, (if c.maxTxData - c.txData < data.length then { c with blockedLimit := some c.maxTxData } else c) =
      ({ c with blockedLimit := b } : Conn) := by
    split
    · exact ⟨_, rfl⟩
    · exact ⟨c.blockedLimit, rfl⟩
  obtain ⟨bl, hb⟩ := hb
  rw [hb] at he
  cases hg : c.get id with
  | none =>
    unfold closed at h1
    rw [hg] at h1
    have e : ({ c with blockedLimit := bl } : Conn).getOrCreate id true = .error .done := by
      unfold getOrCreate
      have h2 : ({ c with blockedLimit := bl } : Conn).get id = none := hg
      have h3 : ({ c with blockedLimit := bl } : Conn).isCollected id = true := h1
      rw [h2, h3]; rfl
    rw [e] at he; cases he
  | some s =>
    have e : ({ c with blockedLimit := bl } : Conn).getOrCreate id true = .ok ({ c with blockedLimit := bl }, s) := by
      unfold getOrCreate
      have h2 : ({ c with blockedLimit := bl } : Conn).get id = some s := hg
      rw [h2]
    rw [e] at he
    simp only at he
    obtain ⟨W, hW⟩ := (hI.tx.live id s hg).inv
    have hst := hI.static hg
    have hfin : s.send.finOff ≠ none := by
      have h2 : s.send.isFin = true → s.send.finOff ≠ none := by
        intro h
        have : s.send.finOff = some s.send.off := by simpa [SendBuf.isFin] using h
        rw [this]; simp
      unfold closed at h1
      rw [hg] at h1
      simp only at h1
      split at h1
      · simp only [Bool.and_eq_true] at h1; exact h2 h1.2
      · exact h2 h1
      · next hb hl =>
        rw [hst.bidi] at hb
        rw [hst.loc] at hl
        simp [hb, hl] at hdir
    have hz : ∀ d f b k, s.send.write d f = .ok (b, k) → k = 0 := by
      intro d f b k hw
      rcases SendBuf.write_spec hW d f with ⟨b', n', h3, ht⟩ | ⟨e, h3, -⟩
      · rw [h3] at hw; cases hw
        exact (ht.dead (.inr (.inr hfin))).1
      · rw [h3] at hw; cases hw
    have htail : ∀ (c1 : Conn) b k m x y, (c1.sendTail id s b k m x y).2 = .n n → k = 0 → n = 0 := by
      intro c1 b k m x y h3 h4
      unfold sendTail at h3
      simp only at h3
      split at h3
      · cases h3
      · split at h3
        · cases h3
        · cases h3; exact h4
    split at he
    · cases he
    · cases he
    · split at he
      · cases he
      · split at he
        · cases he
        · cases he
        · next hw => exact htail _ _ _ _ _ _ he (hz _ _ _ _ hw)

/-- **C190.** A stream that has not gone yet is reported as finished only after the peer has sent
its end or a reset. -/
theorem finished_needs_end (g : Config) (hd : 0 < g.factorDen) (a : List Op) (hok : ∀ op ∈ a, op.Ok)
    (hcr : (after g a).crashed = false) (hdd : (after g a).dead = false) (id : Nat)
    (hl : ((after g a).get id).isSome = true) (hf : (after g a).finished id = true) : EndSeen id a := by
  obtain ⟨-, -, hF⟩ := between g hd (a := []) (b := a) (by simpa using hok) (by simpa using hcr)
  obtain ⟨s, hs⟩ := Option.isSome_iff_exists.mp hl
  have h1 : s.recv.isFin = true := by unfold finished at hf; rw [hs] at hf; exact hf
  have h2 : s.recv.finOff.isSome = true := by rw [RecvBuf.isFin_iff.1 h1]; rfl
  obtain ⟨op, ho, he⟩ := hF.fresh (by simpa using hdd) id s rfl (by simpa using look_live hs) h2
  cases op <;> simp only [ends] at he
  · next i off data fin => obtain ⟨rfl, rfl⟩ := he; exact .inl ⟨off, data, ho⟩
  · next i code F => subst he; exact .inr ⟨code, F, ho⟩

/-- **C190.** A stream that was never opened is not reported as closed. -/
theorem closed_known (c : Conn) (id : Nat) (h : c.closed id = true) : Known c id := by
  unfold closed at h
  cases hg : c.get id with
  | none => rw [hg] at h; exact .inr h
  | some s => exact .inl (by rw [hg]; rfl)

/-- A server. -/
def srv : Config := { isServer := true, loc := { bidiRemote := 100, uni := 100 }, maxData := 100, maxStreamsBidi := 9, maxStreamsUni := 9 }

/-- The peer's parameters. -/
def hello : Op := .peerParams { bidiLocal := 100, uni := 100 } 100 5 5 50

/-- The end has arrived but not everything is read; then it is; then the answer ends too; then it
is acknowledged and the stream is gone. -/
example : ([[hello], [hello, .recvStream 0 0 [1, 2] true], [hello, .recvStream 0 0 [1, 2] true, .recv 0 1],
    [hello, .recvStream 0 0 [1, 2] true, .recv 0 9], [hello, .recvStream 0 0 [1, 2] true, .recv 0 9, .send 0 [3] true],
    [hello, .recvStream 0 0 [1, 2] true, .recv 0 9, .send 0 [3] true, .outStream 100, .acked 0]].map
      fun ops => ((after srv ops).finished 0, (after srv ops).closed 0, (after srv ops).isCollected 0)) =
    [(true, false, false), (false, false, false), (false, false, false), (true, false, false), (true, true, false),
     (true, true, true)] := by decide

/-- A reset finishes a stream with data still unread. -/
example : (after srv [hello, .recvStream 0 0 [1, 2] false, .recvReset 0 7 5]).finished 0 = true := by decide

/-- The full claim about `stream_finished`, without asking that the stream is known. -/
def FinishedFinal : Prop :=
  ∀ (g : Config) (a b : List Op) (id : Nat), 0 < g.factorDen → (∀ op ∈ a ++ b, op.Ok) → (after g (a ++ b)).crashed = false →
    (after g (a ++ b)).dead = false → (after g a).finished id = true → (after g (a ++ b)).finished id = true

/-- **C190, refuted part.** A stream that was never opened is reported as finished, and data
arrives on it later. -/
theorem never_opened_false : ¬ FinishedFinal := by
  intro h
  have := h srv [hello] [.recvStream 0 0 [1] false] 0 (by decide) (by simp [Op.Ok, hello]) (by decide) (by decide) (by decide)
  revert this; decide

/-- The claim that a stream on which nothing can ever arrive is finished. -/
def NothingToCome : Prop :=
  ∀ (g : Config) (a : List Op) (id : Nat), 0 < g.factorDen → (∀ op ∈ a, op.Ok) → (after g a).crashed = false →
    (after g a).dead = false → isBidi id = false → isLocal id g.isServer = true → (after g a).finished id = true

/-- **C190, refuted part.** A stream of one's own in one direction is reported as unfinished as
long as it exists, even after its end has been sent. -/
theorem own_uni_false : ¬ NothingToCome := by
  intro h
  have := h srv [hello, .send 3 [1] true, .outStream 100] 3 (by decide) (by simp [Op.Ok, hello]) (by decide) (by decide)
    (by decide) (by decide)
  revert this; decide

end Verif.Props.C190
