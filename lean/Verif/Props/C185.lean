import Verif.Props.C125
/-!
C185: proportional rate reduction during recovery (RFC 6937).
-/

namespace Verif.Props.C185
open Verif Verif.Cong

/-- What happens during recovery: an acknowledgement of `n` bytes when `pipe` bytes
are in flight, and a packet of `m` bytes. -/
inductive Ev where
  | ack (n pipe : Nat)
  | send (m : Nat)
  deriving DecidableEq, Repr

/-- One event, as the controller is told of it. -/
def step (thresh mds : Nat) (p : Prr) : Ev → Prr
  | .ack n pipe => p.onAcked n pipe thresh mds
  | .send m => p.onSent m

/-- Recovery from its start with `flight` bytes in flight. -/
def run (flight thresh mds : Nat) (evs : List Ev) : Prr :=
  evs.foldl (step thresh mds) (Prr.event flight)

/-- The sender keeps to the allowance. -/
def Keeps (flight thresh mds : Nat) (evs : List Ev) : Prop :=
  ∀ l m r, evs = l ++ .send m :: r → m ≤ (run flight thresh mds l).sndCnt

/-- Bytes acknowledged, bytes sent, and acknowledgements with no more in flight than
the threshold. -/
def delivered : List Ev → Nat
  | [] => 0
  | .ack n _ :: l => n + delivered l
  | .send _ :: l => delivered l

def sent : List Ev → Nat
  | [] => 0
  | .ack _ _ :: l => sent l
  | .send m :: l => m + sent l

def catchUps (thresh : Nat) : List Ev → Nat
  | [] => 0
  | .ack _ pipe :: l => (if pipe ≤ thresh then 1 else 0) + catchUps thresh l
  | .send _ :: l => catchUps thresh l

theorem delivered_append (a b : List Ev) : delivered (a ++ b) = delivered a + delivered b := by
  induction a with
  | nil => simp [delivered]
  | cons e a ih => cases e <;> simp [delivered, ih] <;> omega

theorem sent_append (a b : List Ev) : sent (a ++ b) = sent a + sent b := by
  induction a with
  | nil => simp [sent]
  | cons e a ih => cases e <;> simp [sent, ih] <;> omega

theorem catchUps_append (t : Nat) (a b : List Ev) : catchUps t (a ++ b) = catchUps t a + catchUps t b := by
  induction a with
  | nil => simp [catchUps]
  | cons e a ih => cases e <;> simp [catchUps, ih] <;> omega

/-- The share of the bytes delivered that may be sent: the least whole number not
below `d * thresh / flight`. -/
def Share (flight thresh d x : Nat) : Prop :=
  d * thresh ≤ x * flight ∧ ∀ y, d * thresh ≤ y * flight → x ≤ y

theorem share_ceil (flight thresh d : Nat) (h : 0 < flight) :
    Share flight thresh d ((d * thresh + flight - 1) / flight) := by
  unfold Share
  generalize d * thresh = a
  have h1 : a ≤ (a + flight - 1) / flight * flight := by
    have := Nat.div_add_mod (a + flight - 1) flight
    have hm := Nat.mod_lt (a + flight - 1) h
    rw [Nat.mul_comm] at this
    omega
  refine ⟨h1, ?_⟩
  intro y hy
  have : a + flight - 1 < (y + 1) * flight := by
    rw [Nat.add_mul, Nat.one_mul]; omega
  have := (Nat.div_lt_iff_lt_mul h).2 this
  omega

theorem run_append (flight thresh mds : Nat) (l : List Ev) (e : Ev) :
    run flight thresh mds (l ++ [e]) = step thresh mds (run flight thresh mds l) e := by
  simp [run]

/-- The counters are what their names say. -/
theorem counted (flight thresh mds : Nat) (evs : List Ev) :
    (run flight thresh mds evs).delivered = delivered evs ∧
    (run flight thresh mds evs).out = sent evs ∧
    (run flight thresh mds evs).recoverfs = flight := by
  have key : ∀ (evs : List Ev) (p : Prr), p.recoverfs = flight →
      (evs.foldl (step thresh mds) p).delivered = p.delivered + delivered evs ∧
      (evs.foldl (step thresh mds) p).out = p.out + sent evs ∧
      (evs.foldl (step thresh mds) p).recoverfs = flight := by
    intro evs
    induction evs with
    | nil => intro p h; simp [delivered, sent, h]
    | cons e evs ih =>
      intro p h
      simp only [List.foldl_cons]
      cases e with
      | ack n pipe =>
        obtain ⟨a, b, c⟩ := ih (step thresh mds p (.ack n pipe)) h
        refine ⟨?_, ?_, c⟩
        · rw [a]; simp only [step, Prr.onAcked, delivered]; omega
        · rw [b]; simp only [step, Prr.onAcked, sent]
      | send m =>
        obtain ⟨a, b, c⟩ := ih (step thresh mds p (.send m)) h
        refine ⟨?_, ?_, c⟩
        · rw [a]; simp only [step, Prr.onSent, delivered]
        · rw [b]; simp only [step, Prr.onSent, sent]; omega
  have := key evs (Prr.event flight) rfl
  simpa [run, Prr.event] using this

theorem snoc_ind {P : List Ev → Prop} (h0 : P []) (hs : ∀ l e, P l → P (l ++ [e])) (l : List Ev) :
    P l := by
  have key : ∀ l : List Ev, P l.reverse := by
    intro l
    induction l with
    | nil => exact h0
    | cons e l ih => rw [List.reverse_cons]; exact hs _ e ih
  have := key l.reverse
  rwa [List.reverse_reverse] at this

theorem keeps_left {flight thresh mds : Nat} {l : List Ev} {e : Ev}
    (h : Keeps flight thresh mds (l ++ [e])) : Keeps flight thresh mds l := by
  intro a m r he
  exact h a m (r ++ [e]) (by rw [he]; simp)

/-- **Conservation of packets.** A sender that keeps to the allowance has not sent
more than was delivered, but for one datagram for each acknowledgement with no more
in flight than the threshold; for a threshold not above the flight at the start. -/
theorem conserved (flight thresh mds : Nat) (evs : List Ev) (ht : thresh ≤ flight)
    (hk : Keeps flight thresh mds evs) :
    sent evs + (run flight thresh mds evs).sndCnt ≤
      delivered evs + catchUps thresh evs * mds := by
  induction evs using snoc_ind with
  | h0 => simp [sent, delivered, run, Prr.event, catchUps]
  | hs l e ih =>
    have ih := ih (keeps_left hk)
    obtain ⟨h1, h2, h3⟩ := counted flight thresh mds l
    rw [run_append, sent_append, delivered_append, catchUps_append]
    cases e with
    | send m =>
      have := hk l m [] rfl
      simp only [step, Prr.onSent, sent, delivered, catchUps, Nat.add_zero]
      omega
    | ack n pipe =>
      simp only [step, Prr.onAcked, sent, delivered, catchUps, Nat.add_zero, h1, h2, h3]
      by_cases hp : pipe > thresh
      · rw [if_pos hp, if_neg (show ¬ pipe ≤ thresh by omega), Nat.add_zero]
        by_cases hf : flight > 0
        · rw [if_pos hf]
          have hs := (share_ceil flight thresh (delivered l + n) hf).2 (delivered l + n)
            (Nat.mul_le_mul_left _ ht)
          omega
        · rw [if_neg hf]
          omega
      · rw [if_neg hp, if_pos (show pipe ≤ thresh by omega)]
        have hm : Nat.min (thresh - pipe) (Nat.max (delivered l + n - sent l) n + mds) ≤
            Nat.max (delivered l + n - sent l) n + mds := Nat.min_le_right _ _
        have hx : Nat.max (delivered l + n - sent l) n ≤
            if n ≤ delivered l + n - sent l then delivered l + n - sent l else n := by
          show max _ _ ≤ _
          split <;> omega
        rw [Nat.add_mul, Nat.one_mul]
        split at hx <;> omega

/-- **The proportional part.** While more than the threshold is in flight, the sender
has sent at most the share of what was delivered, rounded up; right after an
acknowledgement it may send exactly up to that. -/
theorem proportional (flight thresh mds : Nat) (evs : List Ev) (hf : 0 < flight)
    (hk : Keeps flight thresh mds evs)
    (hp : ∀ n pipe, Ev.ack n pipe ∈ evs → thresh < pipe) (x : Nat)
    (hx : Share flight thresh (delivered evs) x) :
    sent evs + (run flight thresh mds evs).sndCnt ≤ x ∧
    ∀ l n pipe, evs = l ++ [.ack n pipe] → sent evs + (run flight thresh mds evs).sndCnt = x := by
  induction evs using snoc_ind generalizing x with
  | h0 =>
    refine ⟨by simp [sent, run, Prr.event], ?_⟩
    intro l n pipe h
    exact absurd h.symm (by simp)
  | hs l e ih =>
    obtain ⟨h1, h2, h3⟩ := counted flight thresh mds l
    have hs := share_ceil flight thresh (delivered l) hf
    have ih := ih (keeps_left hk) (fun n p h => hp n p (by simp [h])) _ hs
    rw [run_append, sent_append]
    cases e with
    | send m =>
      have hm := hk l m [] rfl
      have hd : delivered (l ++ [.send m]) = delivered l := by
        rw [delivered_append]; simp [delivered]
      rw [hd] at hx
      refine ⟨?_, ?_⟩
      · simp only [step, Prr.onSent, sent, Nat.add_zero]
        have := hs.2 x hx.1
        omega
      · intro l' n pipe h
        have := congrArg List.getLast? h
        simp at this
    | ack n pipe =>
      have hd : delivered (l ++ [.ack n pipe]) = delivered l + n := by
        rw [delivered_append]; simp [delivered]
      rw [hd] at hx
      have hpp := hp n pipe (by simp)
      have hs' := share_ceil flight thresh (delivered l + n) hf
      have hxe : ((delivered l + n) * thresh + flight - 1) / flight = x :=
        Nat.le_antisymm (hs'.2 x hx.1) (hx.2 _ hs'.1)
      have hmono : ((delivered l) * thresh + flight - 1) / flight ≤ x := by
        refine hs.2 x (Nat.le_trans ?_ hx.1)
        exact Nat.mul_le_mul_right _ (by omega)
      have heq : sent l + (step thresh mds (run flight thresh mds l) (.ack n pipe)).sndCnt = x := by
        simp only [step, Prr.onAcked, h1, h2, h3]
        rw [if_pos hpp, if_pos hf, hxe]
        omega
      simp only [sent, Nat.add_zero]
      exact ⟨by omega, fun _ _ _ _ => heq⟩

/-- In particular: when all that was in flight at the start has been delivered, the
threshold has been sent, no more and, after using what was allowed, no less. -/
theorem whole_flight (flight thresh mds : Nat) (l : List Ev) (n pipe : Nat) (hf : 0 < flight)
    (hk : Keeps flight thresh mds (l ++ [.ack n pipe]))
    (hp : ∀ n' p', Ev.ack n' p' ∈ l ++ [.ack n pipe] → thresh < p')
    (hd : delivered (l ++ [.ack n pipe]) = flight) :
    sent (l ++ [.ack n pipe]) + (run flight thresh mds (l ++ [.ack n pipe])).sndCnt = thresh := by
  refine (proportional flight thresh mds _ hf hk hp thresh ?_).2 l n pipe rfl
  rw [hd]
  constructor
  · rw [Nat.mul_comm]; exact Nat.le_refl _
  · intro y hy
    rw [Nat.mul_comm] at hy
    exact Nat.le_of_mul_le_mul_right hy hf

/-- **Catching up.** With no more in flight than the threshold, the allowance does not
take the bytes in flight above it, and is at most what was delivered and not yet
replaced, or what was just delivered, and one datagram. -/
theorem catch_up (flight thresh mds : Nat) (l : List Ev) (n pipe : Nat) (h : pipe ≤ thresh) :
    pipe + (run flight thresh mds (l ++ [.ack n pipe])).sndCnt ≤ thresh ∧
    ((run flight thresh mds (l ++ [.ack n pipe])).sndCnt ≤ (delivered l + n - sent l) + mds ∨
     (run flight thresh mds (l ++ [.ack n pipe])).sndCnt ≤ n + mds) := by
  obtain ⟨h1, h2, h3⟩ := counted flight thresh mds l
  rw [run_append]
  simp only [step, Prr.onAcked, h1, h2]
  rw [if_neg (by omega)]
  show pipe + min (thresh - pipe) (max (delivered l + n - sent l) n + mds) ≤ thresh ∧
    (min (thresh - pipe) (max (delivered l + n - sent l) n + mds) ≤ _ ∨
     min (thresh - pipe) (max (delivered l + n - sent l) n + mds) ≤ _)
  omega

/-- Progress: with less in flight than the threshold there is an allowance. -/
theorem progress (flight thresh mds : Nat) (l : List Ev) (n pipe : Nat) (h : pipe < thresh)
    (hm : 0 < mds) : 0 < (run flight thresh mds (l ++ [.ack n pipe])).sndCnt := by
  rw [run_append]
  simp only [step, Prr.onAcked]
  rw [if_neg (by omega)]
  show 0 < min _ (max _ _ + mds)
  omega

/-! ### In the connection -/

open Verif.Rec Verif.Props.C125
open Verif.Props.C122 (with_ tx ack start)

/-- What `catch_up` promises is not kept by the connection: in recovery it adds the
allowance to what the window, which is the threshold, leaves; nothing is in flight, and
almost twice the threshold may be sent. -/
theorem window_false :
    let s := ((start 10).run (with_ .cubic) loss).core
    s.cc.cwnd = s.cc.ssthresh ∧ s.cc.recStart.isSome ∧ s.flight.bytes = 0 ∧
    s.cc.cwnd < available s ∧ available s = s.cc.cwnd + s.cc.prr.sndCnt := by
  decide +kernel

/-- Recovery ends, and nothing is in flight. -/
def over : List Call := loss ++ [tx 10 1200 101, ack [(10, 11)] 200]

/-- The allowance is kept when recovery is over: packets sent now are not sent in
recovery, and more than the window may be sent. -/
theorem after_false :
    let s := ((start 10).run (with_ .cubic) over).core
    s.flight.bytes = 0 ∧ s.cc.inRecovery 200000000 = false ∧ s.cc.cwnd < available s := by
  decide +kernel

/-! ### Concrete cases -/

-- Ten packets in flight, threshold half of it: one packet for two.
example : (run 12000 6000 1200 [.ack 1200 11000, .ack 1200 10000]).sndCnt = 1200 := by decide
example : (run 12000 6000 1200 [.ack 1200 11000, .send 600, .ack 1200 10000]).sndCnt = 600 := by
  decide
example : (run 12000 6000 1200 [.ack 1200 4000]).sndCnt = 2000 := by decide

end Verif.Props.C185
