import Verif.Path.Own

/-!
C81: the active path can send. It does not hold: a destination connection ID used on two
paths can be retired with only one of them told, and a call to retire one may fail half
way. It holds for connections that do not use one on two paths, unless such a call fails;
and for all connections as long as nothing is retired.
-/

namespace Verif.Props.C81
open Verif Verif.Path

/-- A server with a connection ID for its client to spare. -/
abbrev s0 : Conn := Conn.start true true (1, 2) 3 3 3 false [1] [2] none none

/-- The address of the client changes without its doing, so that it goes on with the same
connection ID; it has given the server no other one, so that the server does so too. -/
def rebound : List Op := [.setLimit 3, .newScid [3] 7 false, .establish, .recv (1, 3) 600 [.short [1] [.other] true]]

/-- Then the client has its first connection ID replaced. -/
def replaced : List Op := rebound ++ [.recv (1, 3) 600 [.short [1] [.newCid [4] 1 8 1, .other] true]]

/-- The path a packet goes on has a destination connection ID that is stored. -/
def CanSend (c : Conn) : Prop := ∀ pid p d, c.pickPath none none = some pid → c.paths.get pid = some p → p.dcid = some d →
  (c.ids.dcids.get d).isSome = true

theorem can_send_false : ¬ ∀ ops : List Op, (s0.run ops).closed = false → CanSend (s0.run ops) := by
  intro h
  have := h replaced rfl 1 _ 0 rfl rfl rfl
  revert this
  decide +kernel

/-- Before, packets are sent; after, none, though there is an unused connection ID and the
other path has it. -/
example : ((s0.run rebound).send none none 1200 10 [⟨false, true, 600, 0, none⟩]).1 = some (1, 600, 0) ∧
    ((s0.run replaced).send none none 1200 10 [⟨false, true, 600, 0, none⟩]).1 = none ∧ (s0.run replaced).closed = false ∧
    (s0.run replaced).ids.dcids.inner.map (fun e => (e.seq, e.path)) = [(1, some 0)] ∧
    (s0.run replaced).paths.slots.map (·.map fun p => (p.active, p.dcid)) = [some (false, some 1), some (true, some 0)] :=
  ⟨rfl, rfl, rfl, rfl, rfl⟩

/-- If the connection ID of that path is not stored, nothing is sent, and this does not
change by trying again. -/
theorem stuck (c : Conn) (pid : Nat) (p : Path) (d outLen now : Nat) (pkts : List Conn.Out) (he : c.earlyKey = false)
    (h1 : c.pickPath none none = some pid) (h2 : c.paths.get pid = some p) (h3 : p.dcid = some d) (h4 : c.ids.dcids.get d = none) :
    c.send none none outLen now pkts = (none, c) := by
  have hf : c.flush = c := by unfold Conn.flush; rw [he]; rfl
  unfold Conn.send
  rw [hf]
  dsimp only
  rw [h1]
  dsimp only
  rw [h2]
  dsimp only
  cases pkts with
  | nil => rfl
  | cons o l =>
    have hl : c.sendLoop pid none none now 0 (c.budget p outLen) false (o :: l) = (.ok (0, c.budget p outLen, false), c) ∨
        c.sendLoop pid none none now 0 (c.budget p outLen) false (o :: l) = (.error .invalidState, c) := by
      unfold Conn.sendLoop
      split
      · exact Or.inl rfl
      · have hs : c.sendSingle pid (c.budget p outLen) o now = none ∨
            c.sendSingle pid (c.budget p outLen) o now = some (.error .invalidState, c) := by
          unfold Conn.sendSingle
          split
          · exact Or.inl rfl
          · rw [h2]
            dsimp only
            unfold Conn.header
            rw [h3]
            dsimp only
            rw [h4]
            exact Or.inr rfl
        rcases hs with hs | hs <;> rw [hs]
        · exact Or.inl rfl
        · exact Or.inr rfl
    rcases hl with hl | hl <;> rw [hl] <;> rfl

/-- For ever, if nothing else happens. -/
theorem stuck_for_ever (c : Conn) (pid : Nat) (p : Path) (d : Nat) (ops : List Op) (he : c.earlyKey = false)
    (h1 : c.pickPath none none = some pid) (h2 : c.paths.get pid = some p) (h3 : p.dcid = some d) (h4 : c.ids.dcids.get d = none)
    (hops : ∀ op ∈ ops, ∃ outLen now pkts, op = .send none none outLen now pkts) : c.run ops = c := by
  induction ops with
  | nil => rfl
  | cons op l ih =>
    obtain ⟨outLen, now, pkts, ho⟩ := hops op List.mem_cons_self
    have : c.step op = c := by
      rw [ho]
      simp only [Conn.step]
      rw [stuck c pid p d outLen now pkts he h1 h2 h3 h4]
    show (c.step op).run l = c
    rw [this]
    exact ih fun op ho => hops op (List.mem_cons_of_mem _ ho)

/-- The state after the replacement is such. -/
example (ops : List Op) (hops : ∀ op ∈ ops, ∃ outLen now pkts, op = .send none none outLen now pkts) :
    s0.run (replaced ++ ops) = s0.run replaced := by
  rw [Conn.run_append]
  exact stuck_for_ever _ 1 _ 0 ops rfl rfl rfl rfl rfl hops

/-- A client that asks for more retirements than it keeps track of; the peer, which issues
another connection ID each time, is told of none of them. -/
def churn : Nat → List Op
  | 0 => [.establish]
  | n + 1 => churn n ++ [.recv (1, 2) 100 [.short [1] [.newCid [UInt8.ofNat (10 + n)] (n + 1) (100 + n) 0] false], .retireDcid n]

abbrev c0 : Conn := Conn.start false false (1, 2) 2 3 3 false [1] [2] none none

/-- The last call fails, but the connection ID of the only path is gone, with an unused one
stored. -/
theorem client_false : ¬ ∀ ops : List Op, (c0.run ops).closed = false → CanSend (c0.run ops) := by
  intro h
  have := h (churn 7) rfl 0 _ 6 rfl rfl rfl
  revert this
  decide +kernel

example : ((c0.run (churn 6 ++ [.recv (1, 2) 100 [.short [1] [.newCid [16] 7 106 0] false]])).retireDcid 6).1 = .error .idLimit ∧
    (c0.run (churn 7)).ids.dcids.inner.map (fun e => (e.seq, e.path)) = [(7, none)] ∧
    (c0.run (churn 7)).paths.slots.map (·.map (·.dcid)) = [some (some 6)] ∧
    ((c0.run (churn 6)).send none none 1200 10 [⟨false, true, 600, 0, none⟩]).1 = some (0, 600, 0) ∧
    ((c0.run (churn 7)).send none none 1200 10 [⟨false, true, 600, 0, none⟩]).1 = none := by decide +kernel

/-- The path packets go on has a destination connection ID, and it is stored. -/
def Ready (c : Conn) : Prop := ∀ pid p, c.pickPath none none = some pid → c.paths.get pid = some p →
  ∃ d, p.dcid = some d ∧ (c.ids.dcids.get d).isSome = true

theorem has_id {c : Conn} {pid : Nat} {p : Path} (h : c.pickPath none none = some pid) (hp : c.paths.get pid = some p) : ∃ d, p.dcid = some d := by
  have key : p.dcid.isSome = true := by
    have h : c.sendPath none none = some pid := h
    unfold Conn.sendPath at h
    split at h
    · rename_i k hk
      cases h
      split at hk
      · obtain ⟨q, hq, hqt⟩ := PathMap.find_some hk
        rw [hp] at hq
        cases hq
        rw [Bool.and_eq_true, Bool.and_eq_true] at hqt
        exact hqt.1.2
      · cases hk
    · split at h
      · cases h
      · rename_i k hk
        split at h
        · cases h
        · split at h
          · cases h
            obtain ⟨q, hq, hqt⟩ := PathMap.find_some hk
            rw [hp] at hq
            cases hq
            unfold Path.isActive at hqt
            rw [Bool.and_eq_true] at hqt
            exact hqt.2
          · cases h
  cases hd : p.dcid with
  | none => rw [hd] at key; cases key
  | some d => exact ⟨d, rfl⟩

theorem get_of_key {c : Conn} {d : Nat} (h : d ∈ Cid.keys c.ids.dcids.inner) : (c.ids.dcids.get d).isSome = true := by
  cases hg : c.ids.dcids.get d with
  | none => exact absurd h (Cid.find_seq_none.mp hg)
  | some e => rfl

/-- No call to retire a connection ID fails because too many are to be retired already. -/
def Granted : Conn → List Op → Prop
  | _, [] => True
  | c, op :: l => (∀ seq, op = .retireDcid seq → (c.retireDcid seq).1 ≠ .error .idLimit) ∧ Granted (c.step op) l

theorem own_step {c : Conn} (hi : Inv c) (h : Own c) (op : Op) (hg : ∀ seq, op = .retireDcid seq → (c.retireDcid seq).1 ≠ .error .idLimit) :
    Own (c.step op) := by
  cases op with
  | recv a len pkts => exact own_walk.recv trivial hi h (fun _ _ _ => h) fun _ _ _ _ => trivial
  | send src dst outLen now pkts => exact own_walk.send trivial hi h src dst outLen now pkts
  | timeout now due =>
    obtain ⟨m, b, he, hr, _⟩ := SameD.onTimeout c now due
    simp only [Conn.step]
    rw [he]
    have := h.rel hr
    exact ⟨this.1, this.2, this.3, this.4, this.5⟩
  | probe a => exact own_walk.probePath hi h a
  | migrate a => exact own_walk.migrate hi h a fun _ _ => h
  | retireDcid seq => exact own_retireDcid h seq (hg seq rfl)
  | newScid | setLimit | establish | earlyKey | takeNew | takeRetire | lostNew | lostRetire | close => exact own_walk.easy h _ trivial

theorem own_run {c : Conn} (hi : Inv c) (h : Own c) (ops : List Op) (hg : Granted c ops) : Own (c.run ops) := by
  induction ops generalizing c with
  | nil => exact h
  | cons op l ih => exact ih (step_inv hi op) (own_step hi h op hg.1) hg.2

/-- Clients, and servers told not to use a connection ID on two paths, can send, whatever
is retired by either side. -/
theorem can_send_partial (server verified : Bool) (a : Nat × Nat) (limit factor recvMax : Nat) (noReuse : Bool) (scid dcid : Bytes)
    (stok dtok : Option Nat) (hr : server = true → noReuse = true) (ops : List Op)
    (hg : Granted (Conn.start server verified a limit factor recvMax noReuse scid dcid stok dtok) ops) :
    Ready ((Conn.start server verified a limit factor recvMax noReuse scid dcid stok dtok).run ops) := by
  have h0 : Own (Conn.start server verified a limit factor recvMax noReuse scid dcid stok dtok) := by
    refine ⟨by simp [Conn.start, Cid.Ids.setInitialDcid, Cid.keys], ?_, ?_, fun _ => rfl, hr⟩
    · intro e he pid hp
      rw [List.mem_singleton.mp he] at hp
      cases hp
      exact ⟨_, rfl⟩
    · intro pid p d hp hd
      cases pid with
      | zero => cases hp; cases hd; exact Or.inl ⟨_, List.mem_singleton.mpr rfl, rfl, Or.inl rfl⟩
      | succ n => cases hp
  have h := own_run (start_inv server verified a limit factor recvMax noReuse scid dcid stok dtok) h0 ops hg
  intro pid p hpid hp
  obtain ⟨d, hd⟩ := has_id hpid hp
  rcases h.own pid p d hp hd with ⟨e, he, hes, _⟩ | hx
  · exact ⟨d, hd, get_of_key (hes ▸ List.mem_map.mpr ⟨e, he, rfl⟩)⟩
  · cases hx

/-- A client with two paths whose connection IDs are both replaced, by its own call and by
its peer: it goes on with the two new ones. -/
def twice : List Op :=
  [.setLimit 3, .newScid [3] 7 false, .establish, .recv (1, 2) 100 [.short [1] [.newCid [4] 1 8 0] false], .probe (5, 2),
   .recv (1, 2) 100 [.short [1] [.newCid [5] 2 9 0] false], .retireDcid 0,
   .recv (1, 2) 100 [.short [1] [.newCid [6] 3 10 3, .newCid [7] 4 11 3] false], .send none none 1200 10 [⟨false, true, 1200, 0, some 77⟩],
   .send none none 1200 10 [⟨false, true, 100, 0, none⟩]]

abbrev c3 : Conn := Conn.start false false (1, 2) 3 3 3 false [1] [2] none none

example : Ready (c3.run twice) := can_send_partial false false (1, 2) 3 3 3 false [1] [2] none none (fun h => by cases h) twice
  (by simp only [Granted, twice]; refine ⟨?_, ?_, ?_, ?_, ?_, ?_, ?_, ?_, ?_, ?_, trivial⟩ <;> intro seq hs <;> cases hs; decide +kernel)

example : (c3.run twice).ids.dcids.inner.map (fun e => (e.seq, e.path)) = [(3, some 1), (4, some 0)] ∧
    (c3.run twice).ids.retire.inner = [0, 1, 2] ∧ (c3.run twice).closed = false ∧
    ((c3.run (twice.take 9)).send none none 1200 10 [⟨false, true, 100, 0, none⟩]).1 = some (0, 100, 0) := by decide +kernel

/-- Nothing is retired: neither by a call nor by the peer. -/
def Quiet (ops : List Op) : Prop := ∀ op ∈ ops, (∀ seq, op ≠ .retireDcid seq) ∧
  ∀ a len pkts, op = .recv a len pkts → ∀ pkt ∈ pkts, ∀ cid seq token rpt, .newCid cid seq token rpt ∈ pkt.frames → rpt = 0

theorem stored_step {c : Conn} (hi : Inv c) (h : Stored c) (op : Op) (hn : ∀ seq, op ≠ .retireDcid seq)
    (hq : ∀ a len pkts, op = .recv a len pkts → ∀ pkt ∈ pkts, ∀ cid seq token rpt, .newCid cid seq token rpt ∈ pkt.frames → rpt = 0) :
    Stored (c.step op) := by
  have hw : NoRetire .other := fun _ _ _ _ h => by cases h
  cases op with
  | recv a len pkts => exact stored_walk.recv hw hi h (fun _ _ _ => h) fun pkt hp f hf cid seq token rpt he => hq a len pkts rfl pkt hp cid seq token rpt (he ▸ hf)
  | send src dst outLen now pkts => exact stored_walk.send hw hi h src dst outLen now pkts
  | timeout now due =>
    obtain ⟨m, b, he, hr, _⟩ := SameD.onTimeout c now due
    simp only [Conn.step]
    rw [he]
    have := h.rel hr
    exact ⟨this.1, this.2, this.3⟩
  | probe a => exact stored_walk.probePath hi h a
  | migrate a => exact stored_walk.migrate hi h a fun _ _ => h
  | retireDcid seq => exact absurd rfl (hn seq)
  | newScid | setLimit | establish | earlyKey | takeNew | takeRetire | lostNew | lostRetire | close => exact stored_walk.easy h _ trivial

theorem stored_run {c : Conn} (hi : Inv c) (h : Stored c) (ops : List Op) (hq : Quiet ops) : Stored (c.run ops) := by
  induction ops generalizing c with
  | nil => exact h
  | cons op l ih =>
    exact ih (step_inv hi op) (stored_step hi h op (hq op List.mem_cons_self).1 (hq op List.mem_cons_self).2)
      fun op ho => hq op (List.mem_cons_of_mem _ ho)

/-- Any connection can send as long as nothing is retired. -/
theorem can_send_quiet_partial (server verified : Bool) (a : Nat × Nat) (limit factor recvMax : Nat) (noReuse : Bool) (scid dcid : Bytes)
    (stok dtok : Option Nat) (ops : List Op) (hq : Quiet ops) :
    Ready ((Conn.start server verified a limit factor recvMax noReuse scid dcid stok dtok).run ops) := by
  have h0 : Stored (Conn.start server verified a limit factor recvMax noReuse scid dcid stok dtok) := by
    refine ⟨?_, fun _ => List.mem_cons_self, fun k hk => by cases hk⟩
    intro pid p d hp hd
    cases pid with
    | zero => cases hp; cases hd; exact List.mem_cons_self
    | succ n => cases hp
  have h := stored_run (start_inv server verified a limit factor recvMax noReuse scid dcid stok dtok) h0 ops hq
  intro pid p hpid hp
  obtain ⟨d, hd⟩ := has_id hpid hp
  exact ⟨d, hd, get_of_key (h.own pid p d hp hd)⟩

/-- The server whose client's address changed, before the replacement. -/
example : Ready (s0.run rebound) := can_send_quiet_partial true true (1, 2) 3 3 3 false [1] [2] none none rebound (by
  intro op ho
  refine ⟨fun seq hs => by subst hs; simp [rebound] at ho, fun a len pkts hr pkt hp cid seq token rpt hm => ?_⟩
  subst hr
  simp only [rebound, List.mem_cons, Op.recv.injEq, reduceCtorEq, List.mem_nil_iff, or_false, false_or] at ho
  rw [ho.2.2] at hp
  rw [List.mem_singleton.mp hp] at hm
  cases List.mem_singleton.mp hm)

end Verif.Props.C81
