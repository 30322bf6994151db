import Verif.Path.Serve

/-!
C191: which path a datagram goes out on. What was asked for is what is used, and the loop over
`paths_iter` asks every path `send` could use. But `send` without addresses does not serve
the active path whenever that can send: a path that is to be probed comes first, even if
nothing may be sent to it, and then nothing is sent at all.
-/

namespace Verif.Props.C191
open Verif Verif.Path

variable {server verified noReuse : Bool} {a : Nat × Nat} {limit factor recvMax : Nat} {scid dcid : Bytes} {stok dtok : Option Nat}

theorem reach_inv (server verified : Bool) (a : Nat × Nat) (limit factor recvMax : Nat) (noReuse : Bool) (scid dcid : Bytes) (stok dtok : Option Nat)
    (ops : List Op) : Inv ((Conn.start server verified a limit factor recvMax noReuse scid dcid stok dtok).run ops) :=
  run_inv (start_inv server verified a limit factor recvMax noReuse scid dcid stok dtok) ops

/-- Of the addresses named in a call, the path of the datagram has each. -/
theorem asked (ops : List Op) (src dst : Option Nat) (outLen now : Nat) (pkts : List Conn.Out) (r : Nat × Nat × Nat) :
    let c := (Conn.start server verified a limit factor recvMax noReuse scid dcid stok dtok).run ops
    (c.send src dst outLen now pkts).1 = some r →
    ∃ p, (c.send src dst outLen now pkts).2.paths.get r.1 = some p ∧ (∀ f, src = some f → p.laddr = f) ∧ (∀ t, dst = some t → p.paddr = t) := by
  intro c hr
  have hi : Inv c := reach_inv server verified a limit factor recvMax noReuse scid dcid stok dtok ops
  have hf := (SameId.fam.flush hi).inv
  rcases send_spec c src dst outLen now pkts with ⟨_, h2⟩ | ⟨pid, p, os, hpid, hp, _, h1, _, _, _, h5⟩
  · rw [h2] at hr; cases hr
  · have e := h5 r hr
    have e : r.1 = pid := by rw [e]
    have key : (∀ f, src = some f → p.laddr = f) ∧ (∀ t, dst = some t → p.paddr = t) := by
      have general : c.flush.sendPath src dst = some pid → (∀ f, src = some f → p.laddr = f) ∧ (∀ t, dst = some t → p.paddr = t) := by
        intro h
        obtain ⟨q, hq, hm, _⟩ := sendPath_spec h
        rw [hp] at hq
        cases hq
        unfold Conn.matches_ at hm
        rw [Bool.and_eq_true] at hm
        refine ⟨fun f hf => ?_, fun t ht => ?_⟩
        · have := hm.1
          rw [hf] at this
          exact Option.some.inj (of_decide_eq_true this)
        · have := hm.2
          rw [ht] at this
          exact Option.some.inj (of_decide_eq_true this)
      unfold Conn.pickPath at hpid
      split at hpid
      · obtain ⟨q, hq, ha⟩ := (hf.table.addrs _ pid).mp hpid
        rw [hp] at hq
        cases hq
        exact ⟨fun g hg => by cases hg; exact (Prod.mk.inj ha).1, fun g hg => by cases hg; exact (Prod.mk.inj ha).2⟩
      · exact general hpid
    refine ⟨p.sentAll os now, ?_, ?_⟩
    · rw [h1, e]
      show (c.flush.paths.upd pid _).get pid = _
      rw [PathMap.get_upd, if_pos rfl, hp]
      rfl
    · obtain ⟨_, s2, s3⟩ := SameId.sentAll p os now
      rw [s2, s3]
      exact key

/-- Without addresses, the path chosen is one to be probed if there is one, otherwise the
active one. -/
theorem choice (ops : List Op) (pid : Nat) :
    let c := (Conn.start server verified a limit factor recvMax noReuse scid dcid stok dtok).run ops
    c.established = true → c.pickPath none none = some pid → ∃ p, c.paths.get pid = some p ∧
      (p.probingRequired = true ∨ p.isActive = true ∧
        ∀ j q, c.paths.get j = some q → q.dcid.isSome = true → q.probingRequired = false) := by
  intro c he h
  have h : c.sendPath none none = some pid := h
  obtain ⟨p, hp, _, _, hc⟩ := sendPath_spec h
  refine ⟨p, hp, ?_⟩
  rcases hc with ⟨_, hx⟩ | ⟨_, ha, hx⟩
  · exact Or.inl hx
  · exact Or.inr ⟨ha, fun j q hq hd => hx he j q hq rfl hd⟩

/-- The peer addresses listed for a local address are those of the paths with it that have a
destination connection ID and are active, validated or to be probed. -/
theorem listed (ops : List Op) (f t : Nat) :
    let c := (Conn.start server verified a limit factor recvMax noReuse scid dcid stok dtok).run ops
    t ∈ c.pathsIter f ↔ ∃ i p, c.paths.get i = some p ∧ (p.laddr, p.paddr) = (f, t) ∧ p.dcid.isSome = true ∧
      (p.isActive = true ∨ p.state = .validated ∨ p.received ≠ [] ∨ p.requested = true) := by
  intro c
  rw [mem_pathsIter]
  constructor
  · rintro ⟨i, p, hi, ht, hl⟩
    unfold Path.listed at hl
    rw [Bool.and_eq_true, Bool.and_eq_true, Bool.or_eq_true] at hl
    obtain ⟨⟨hd, hu⟩, hf⟩ := hl
    refine ⟨i, p, hi, by rw [ht, of_decide_eq_true hf], hd, ?_⟩
    rcases hu with hu | hu
    · unfold Path.usable at hu
      rw [Bool.or_eq_true, Bool.and_eq_true] at hu
      rcases hu with hu | hu
      · exact Or.inl hu
      · exact Or.inr (Or.inl (of_decide_eq_true hu.1))
    · unfold Path.probingRequired at hu
      rw [Bool.or_eq_true] at hu
      rcases hu with hu | hu
      · right; right; left
        intro hn
        rw [hn] at hu
        cases hu
      · exact Or.inr (Or.inr (Or.inr hu))
  · rintro ⟨i, p, hi, he, hd, hu⟩
    obtain ⟨e1, e2⟩ := Prod.mk.inj he
    refine ⟨i, p, hi, e2, ?_⟩
    unfold Path.listed
    rw [Bool.and_eq_true, Bool.and_eq_true, Bool.or_eq_true]
    refine ⟨⟨hd, ?_⟩, decide_eq_true e1⟩
    rcases hu with hu | hu | hu | hu
    · left; unfold Path.usable; rw [hu]; rfl
    · left; unfold Path.usable; rw [hd, hu]; simp
    · right
      unfold Path.probingRequired
      cases hr : p.received with
      | nil => exact absurd hr hu
      | cons => rfl
    · right; unfold Path.probingRequired; rw [hu]; simp

/-- None of them is listed twice. -/
theorem listed_once (ops : List Op) (f : Nat) :
    (((Conn.start server verified a limit factor recvMax noReuse scid dcid stok dtok).run ops).pathsIter f).Nodup :=
  nodup_pathsIter (reach_inv server verified a limit factor recvMax noReuse scid dcid stok dtok ops).table f

/-- A call for a listed pair of addresses uses the path that has them. -/
theorem listed_used (ops : List Op) (f t : Nat) :
    let c := (Conn.start server verified a limit factor recvMax noReuse scid dcid stok dtok).run ops
    t ∈ c.pathsIter f → ∃ i p, c.pickPath (some f) (some t) = some i ∧ c.paths.get i = some p ∧ (p.laddr, p.paddr) = (f, t) := by
  intro c h
  obtain ⟨i, p, hp, he, _⟩ := (listed (server := server) (verified := verified) (a := a) (limit := limit) (factor := factor) (recvMax := recvMax)
    (noReuse := noReuse) (scid := scid) (dcid := dcid) (stok := stok) (dtok := dtok) ops f t).mp h
  have hi : Inv c := reach_inv server verified a limit factor recvMax noReuse scid dcid stok dtok ops
  exact ⟨i, p, (hi.table.addrs (f, t) i).mpr ⟨p, hp, he⟩, hp, he⟩

/-- Whatever path a call that names not both addresses would use is listed for its local
address: a loop over the listed ones misses nothing. -/
theorem nothing_missed (ops : List Op) (src dst : Option Nat) (pid : Nat) :
    let c := (Conn.start server verified a limit factor recvMax noReuse scid dcid stok dtok).run ops
    src = none ∨ dst = none → c.pickPath src dst = some pid → ∃ p, c.paths.get pid = some p ∧ p.paddr ∈ c.pathsIter p.laddr ∧
      c.pickPath (some p.laddr) (some p.paddr) = some pid := by
  intro c hn h
  have h : c.sendPath src dst = some pid := by
    unfold Conn.pickPath at h
    split at h
    · rcases hn with hn | hn <;> cases hn
    · exact h
  obtain ⟨p, hp, _, hd, hc⟩ := sendPath_spec h
  have hi : Inv c := reach_inv server verified a limit factor recvMax noReuse scid dcid stok dtok ops
  refine ⟨p, hp, ?_, (hi.table.addrs (p.laddr, p.paddr) pid).mpr ⟨p, hp, rfl⟩⟩
  rw [mem_pathsIter]
  refine ⟨pid, p, hp, rfl, ?_⟩
  unfold Path.listed
  rw [hd]
  rcases hc with ⟨_, hx⟩ | ⟨_, hx, _⟩
  · rw [hx]; simp
  · unfold Path.usable; rw [hx]; simp

/-! ## The active path waits -/

abbrev s0 : Conn := Conn.start true true (1, 2) 3 3 3 false [1] [2] none none

/-- A client known at address 2 sends a small datagram from address 3. The server challenges
that address with the 120 bytes it may send; its application, told of the new path, asks for a
validation of its own. The first challenge is lost. -/
def probed : List Op :=
  [.setLimit 3, .newScid [3] 7 false, .establish, .recv (1, 2) 100 [.short [1] [.newCid [4] 1 8 0, .other] true],
   .recv (1, 3) 40 [.short [3] [.challenge 5] false], .send none none 1200 100 [⟨false, true, 120, 1, some 70⟩], .probe (1, 3),
   .timeout 200 [(1, 10)]]

/-- The validation of that path has failed; the active path can send, and is listed, but `send`
has nothing. -/
example : (s0.run probed).paths.slots.map (·.map fun p => (p.state, p.active, p.maxSend, p.requested)) =
      [some (.validated, true, 0, false), some (.failed, false, 0, true)] := by decide +kernel

example : (s0.run probed).closed = false ∧ (s0.run probed).pathsIter 1 = [2, 3] ∧
    ((s0.run probed).send none none 1200 300 [⟨false, true, 600, 0, none⟩]).1 = none ∧
    ((s0.run probed).send (some 1) (some 2) 1200 300 [⟨false, true, 600, 0, none⟩]).1 = some (0, 600, 0) := by decide +kernel

/-- What the active path can send when it is named, `send` sends something for. -/
theorem served_false : ¬ ∀ (ops : List Op) (i : Nat) (p : Path) (outLen now : Nat) (pkts : List Conn.Out),
    (s0.run ops).closed = false → (s0.run ops).paths.activeId = some i → (s0.run ops).paths.get i = some p →
    ((s0.run ops).send (some p.laddr) (some p.paddr) outLen now pkts).1 ≠ none →
    ∃ pkts', ((s0.run ops).send none none outLen now pkts').1 ≠ none := by
  intro h
  have hb : Blocked (s0.run probed) 1 := by
    refine ⟨by decide +kernel, by decide +kernel, by decide +kernel, by decide +kernel, ?_, ?_, by decide +kernel⟩
    · intro p hp
      have e : ((s0.run probed).paths.get 1).map (fun p => (p.verified, p.maxSend)) = some (false, 0) := by decide +kernel
      rw [hp] at e
      exact Prod.mk.inj (Option.some.inj e)
    · intro j q hq
      have e : ∀ s ∈ (s0.run probed).paths.slots, s.any (fun p => !p.inFlight.isEmpty) = false := by decide +kernel
      have := e _ (mem_slots.mpr ⟨j, hq⟩)
      cases hf : q.inFlight with
      | nil => rfl
      | cons x l => simp [hf] at this
  obtain ⟨p, hp⟩ : ∃ p, (s0.run probed).paths.get 0 = some p := by
    cases hx : (s0.run probed).paths.get 0 with
    | none => exact absurd hx (by decide +kernel)
    | some p => exact ⟨p, rfl⟩
  have ea : ((s0.run probed).paths.get 0).map (fun p => (p.laddr, p.paddr)) = some (1, 2) := by decide +kernel
  rw [hp] at ea
  obtain ⟨e1, e2⟩ := Prod.mk.inj (Option.some.inj ea)
  have e1 : p.laddr = 1 := e1
  have e2 : p.paddr = 2 := e2
  obtain ⟨pkts', hx⟩ := h probed 0 p 1200 300 [⟨false, true, 600, 0, none⟩] (by decide +kernel) (by decide +kernel) hp
    (by rw [e1, e2]; decide +kernel)
  rw [hb.send] at hx
  exact hx rfl

/-- It stays so, however often `send` is called and whatever timers expire: only a datagram
from that address, or another call of the application, ends it. -/
theorem waits_for_ever (c : Conn) (i : Nat) (h : Blocked c i) (ops : List Op)
    (hops : ∀ op ∈ ops, (∃ outLen now pkts, op = .send none none outLen now pkts) ∨ ∃ now due, op = .timeout now due)
    (outLen now : Nat) (pkts : List Conn.Out) : ((c.run ops).send none none outLen now pkts).1 = none := by
  have : Blocked (c.run ops) i := by
    induction ops generalizing c with
    | nil => exact h
    | cons op l ih =>
      refine ih (c.step op) ?_ fun op ho => hops op (List.mem_cons_of_mem _ ho)
      rcases hops op List.mem_cons_self with ⟨o, n, p, e⟩ | ⟨n, d, e⟩ <;> rw [e] <;> simp only [Conn.step]
      · rw [h.send]; exact h
      · exact h.timeout n d
  rw [this.send]

/-- While no path is to be probed, the active path is the one that is used. -/
theorem served_partial (c : Conn) (i : Nat) (p : Path) (ha : c.paths.activeId = some i) (hp : c.paths.get i = some p)
    (hn : ∀ j q, c.paths.get j = some q → q.dcid.isSome = true → q.probingRequired = false) : c.pickPath none none = some i := by
  show c.sendPath none none = some i
  unfold Conn.sendPath
  split
  · rename_i k hk
    split at hk
    · obtain ⟨q, hq, ht⟩ := PathMap.find_some hk
      rw [Bool.and_eq_true, Bool.and_eq_true] at ht
      rw [hn k q hq ht.1.2] at ht
      cases ht.2
    · cases hk
  · rw [ha]
    dsimp only
    rw [hp]
    rfl

/-- A client that moved to another local address: only there is its active path listed. -/
example :
    let c := (Conn.start false false (1, 2) 3 3 3 false [1] [2] none none).run
      [.setLimit 3, .newScid [3] 7 false, .establish, .recv (1, 2) 100 [.short [1] [.newCid [4] 1 8 0] false], .migrate (5, 2)]
    c.pathsIter 1 = [2] ∧ c.pathsIter 5 = [2] ∧ c.pickPath none none = some 1 ∧ c.pickPath (some 1) none = none := by decide +kernel

end Verif.Props.C191
