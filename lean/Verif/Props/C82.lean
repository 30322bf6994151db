import Verif.Path.One

/-!
C82: there is exactly one active path. It does not hold: retiring the connection ID of the
active path leaves none, be it by a call or by the peer, and then there may be two; a
change to a path whose validation failed leaves none. It holds if connection IDs may be
used on two paths, none is retired and failed paths are not used.
-/

namespace Verif.Props.C82
open Verif Verif.Path

/-- The paths that data may be sent on. -/
def active (c : Conn) : List Nat := (List.range c.paths.slots.length).filter fun i => (c.paths.get i).any (·.isActive)

abbrev c0 : Conn := Conn.start false false (1, 2) 3 3 3 false [1] [2] none none

/-- A client that has probed a second path and validated it. -/
def probed : List Op :=
  [.setLimit 3, .newScid [3] 7 false, .establish, .recv (1, 2) 100 [.short [1] [.newCid [4] 1 8 0] false], .probe (5, 2),
   .send none none 1200 10 [⟨false, true, 1200, 0, some 77⟩], .recv (5, 2) 100 [.short [3] [.response 77] true]]

example : active (c0.run probed) = [0] := by decide +kernel

/-- The application retires the connection ID of the active path; this is granted, as the
other path could be used. -/
theorem one_false : ¬ ∀ ops : List Op, (c0.run ops).closed = false → active (c0.run ops) ≠ [] := by
  intro h
  exact h (probed ++ [.retireDcid 0]) rfl (by decide +kernel)

example : ((c0.run probed).retireDcid 0).1 = .ok () ∧ (c0.run (probed ++ [.retireDcid 0])).closed = false := ⟨rfl, rfl⟩

/-- A server that is told not to use a connection ID on two paths, and whose client has
issued no second one: when the address of the client changes there is no active path, and
the next packet closes the connection. -/
theorem rebound_false : ¬ ∀ ops : List Op, let c := (Conn.start true true (1, 2) 3 3 3 true [1] [2] none none).run ops
    c.closed = false → active c ≠ [] := by
  intro h
  exact h [.establish, .recv (1, 3) 600 [.short [1] [.other] true]] rfl (by decide +kernel)

example : ((Conn.start true true (1, 2) 3 3 3 true [1] [2] none none).run
    [.establish, .recv (1, 3) 600 [.short [1] [.other] true], .recv (1, 3) 600 [.short [1] [.other] true]]).closed = true ∧
    ((Conn.start true true (1, 2) 3 3 3 false [1] [2] none none).run
    [.establish, .recv (1, 3) 600 [.short [1] [.other] true], .recv (1, 3) 600 [.short [1] [.other] true]]).closed = false := ⟨rfl, rfl⟩

/-- After a timer expires, the other path is active; when the peer issues another
connection ID, the old one is again, too. -/
theorem only_false : ¬ ∀ ops : List Op, (c0.run ops).closed = false → (active (c0.run ops)).length ≤ 1 := by
  intro h
  exact absurd (h (probed ++ [.retireDcid 0, .timeout 100 [], .recv (5, 2) 100 [.short [3] [.newCid [5] 2 9 0, .other] true]]) rfl)
    (by decide +kernel)

theorem setActive_none {c : Conn} (h : active c = []) : c.paths.activeId = none := by
  unfold PathMap.activeId PathMap.find
  rw [List.findIdx?_eq_none_iff]
  intro s hs
  obtain ⟨i, hi, he⟩ := List.getElem_of_mem hs
  have hget : c.paths.get i = s := by
    unfold PathMap.get
    rw [List.getElem?_eq_getElem hi, he]
    rfl
  have := List.filter_eq_nil_iff.mp h i (List.mem_range.mpr hi)
  rw [hget] at this
  cases hv : s.any (·.isActive) with
  | false => rfl
  | true => exact absurd hv this

/-- While there is no active path and no connection ID to spare, a packet of the peer that
is not only for probing closes the connection. -/
theorem no_active_closes (c : Conn) (a : Nat × Nat) (len pid : Nat) (p : Path) (cid : Bytes) (newest : Bool) (fs : List Frame)
    (h : active c = []) (hopen : c.closed = false) (hlen : len ≠ 0) (hpid : c.paths.fromAddrs a = some pid) (hp : c.paths.get pid = some p)
    (hclient : c.server = false) (hcid : (p.scid.bind c.ids.scids.get).map (·.cid) = some cid) (hknown : ∃ e ∈ c.ids.scids.inner, e.cid = cid)
    (hspare : c.ids.lowestAvailable = none) (hzero : c.ids.zeroLenDcid = false) (hfs : ∀ f ∈ fs, f = .other) (hfs0 : fs ≠ []) :
    (c.recv a len [.short cid fs newest]).closed = true := by
  have halloc : ∀ l, c.allocate l = (.ok (), c) := by
    intro l
    induction l with
    | nil => rfl
    | cons k l ih =>
      unfold Conn.allocate
      cases hk : c.paths.get k with
      | none => exact ih
      | some q =>
        dsimp only
        rw [hspare, hzero]
        split
        · exact ih
        · rfl
  have hframes : ∀ l : List Frame, (∀ f ∈ l, f = .other) → c.onFrames pid cid false l = (.ok (), c) := by
    intro l hl
    induction l with
    | nil => rfl
    | cons f l ih =>
      have := hl f List.mem_cons_self
      subst this
      unfold Conn.onFrames
      exact ih fun f hf => hl f (List.mem_cons_of_mem _ hf)
  have hall : fs.all (·.probing) = false := by
    cases fs with
    | nil => exact absurd rfl hfs0
    | cons f l =>
      have := hfs f List.mem_cons_self
      subst this
      rfl
  have hproc : c.process pid cid false fs newest = (.error .invalidState, c) := by
    unfold Conn.process
    rw [hframes fs hfs]
    dsimp only
    rw [halloc]
    dsimp only
    rw [hall]
    unfold Conn.migration
    rw [setActive_none h]
    rfl
  have hcredit : c.credit pid len = c := by
    unfold Conn.credit
    have hg : ∀ p : Path, ¬(c.server = true ∧ p.verified = false) := fun p h => by rw [hclient] at h; cases h.1
    simp only [hg, if_false]
    have : c.paths.upd pid (fun p => p) = c.paths := by
      unfold PathMap.upd
      rw [show (fun s : Option Path => s.map fun p => p) = id from by funext s; cases s <;> rfl, List.modify_id]
    rw [this]
  have hone : c.recvOne a len [.short cid fs newest] = (true, { c with closed := true }) := by
    unfold Conn.recvOne
    rw [if_neg hlen, hpid]
    dsimp only
    rw [hp]
    dsimp only
    rw [hcredit]
    unfold Conn.recvLoop
    have hg : ¬(c.closed = true ∨ len = 0) := by
      rw [hopen]
      rintro (h | h)
      · cases h
      · exact hlen h
    rw [if_neg hg]
    have hrp : c.recvPath (some pid) a cid len = some (.ok pid, c) := by
      unfold Conn.recvPath
      cases hf : c.ids.scids.inner.find? (·.cid == cid) with
      | none =>
        obtain ⟨e, he, hec⟩ := hknown
        exact absurd hec (by simpa using List.find?_eq_none.mp hf e he)
      | some e =>
        dsimp only
        unfold Conn.seenOn
        rw [hp]
        dsimp only
        rw [if_pos hcid]
    have hsingle : c.recvSingle (some pid) a len (.short cid fs newest) = some (.error .invalidState, c) := by
      simp only [Conn.recvSingle]
      rw [hrp]
      dsimp only
      rw [hproc]
    rw [hsingle]
  unfold Conn.recv
  rw [hone]

example : ((c0.run (probed ++ [.retireDcid 0])).recv (5, 2) 100 [.short [3] [.other] true]).closed = true :=
  no_active_closes _ _ _ 1 _ _ _ _ (by decide +kernel) rfl (by decide) rfl rfl rfl rfl ⟨_, List.mem_cons_of_mem _ List.mem_cons_self, rfl⟩
    rfl rfl (by decide) (by decide)

/-- The client moves to the second path. The peer replaces the connection IDs of both
paths by one: the path that is not active takes it. -/
def replaced : List Op := probed ++ [.migrate (5, 2), .recv (5, 2) 100 [.short [3] [.newCid [5] 2 9 2] true]]

theorem peer_false : ¬ ∀ ops : List Op, (∀ op ∈ ops, ∀ seq, op ≠ .retireDcid seq) → (c0.run ops).closed = false → active (c0.run ops) ≠ [] := by
  intro h
  exact h replaced (by
    intro op ho seq he
    subst he
    simp [replaced, probed] at ho) rfl (by decide +kernel)

example : active (c0.run (probed ++ [.migrate (5, 2)])) = [1] ∧
    (c0.run replaced).paths.slots.map (·.map fun p => (p.active, p.dcid)) = [some (false, some 2), some (true, none)] ∧
    (c0.run (replaced ++ [.recv (5, 2) 100 [.short [3] [.other] true]])).closed = true := by decide +kernel

/-- The probes of the second path are lost. -/
def lost : List Op :=
  [.send none none 1200 10 [⟨false, true, 1200, 0, some 77⟩], .timeout 20 [(1, 1)], .send none none 1200 30 [⟨false, true, 1200, 0, some 78⟩],
   .timeout 40 [(1, 1)], .send none none 1200 50 [⟨false, true, 1200, 0, some 79⟩], .timeout 60 [(1, 1)]]

/-- A server whose client tries a second path in vain, and uses it all the same. -/
def failed : List Op :=
  [.setLimit 4, .newScid [3] 7 false, .newScid [4] 8 false, .establish, .recv (1, 2) 100 [.short [1] [.newCid [5] 1 8 0] true],
   .recv (1, 3) 1200 [.short [3] [.padding] true]] ++ lost

abbrev s4 : Conn := Conn.start true true (1, 2) 4 3 3 false [1] [2] none none

theorem failed_false : ¬ ∀ ops : List Op, (∀ op ∈ ops, ∀ seq, op ≠ .retireDcid seq) → (s4.run ops).closed = false → active (s4.run ops) ≠ [] := by
  intro h
  exact h (failed ++ [.recv (1, 3) 600 [.short [3] [.other] true]]) (by
    intro op ho seq he
    subst he
    simp [failed, lost] at ho) rfl (by decide +kernel)

/-- The path is taken, but stays failed, and a second packet closes the connection. -/
example : active (s4.run failed) = [0] ∧
    (s4.run (failed ++ [.recv (1, 3) 600 [.short [3] [.other] true]])).paths.slots.map (·.map fun p => (p.active, p.dcid, p.state)) =
      [some (false, some 0, .validated), some (true, some 1, .failed)] ∧
    (s4.run (failed ++ [.recv (1, 3) 600 [.short [3] [.other] true], .recv (1, 3) 600 [.short [3] [.other] true]])).closed = true := by
  decide +kernel

/-- A client that moves to a path that failed, which is granted. -/
theorem migrate_false : ¬ ∀ (ops : List Op) (a : Nat × Nat), active (c0.run ops) ≠ [] → ((c0.run ops).migrate a).1 = .ok () →
    active ((c0.run ops).migrate a).2 ≠ [] := by
  intro h
  exact h ([.setLimit 3, .newScid [3] 7 false, .establish, .recv (1, 2) 100 [.short [1] [.newCid [4] 1 8 0] false], .probe (5, 2)] ++ lost) (5, 2)
    (by decide +kernel) rfl (by decide +kernel)

/-- Nothing is retired, and no path that failed is used again: no 1-RTT packet arrives on
it and the application does not move to it. -/
def Calm : Conn → List Op → Prop
  | _, [] => True
  | c, op :: l => (match op with
      | .retireDcid _ => False
      | .recv a _ pkts => (∀ pkt ∈ pkts, ∀ cid seq token rpt, .newCid cid seq token rpt ∈ pkt.frames → rpt = 0) ∧
        ((∃ cid fs nw, .short cid fs nw ∈ pkts) → ∀ pid p, c.paths.fromAddrs a = some pid → c.paths.get pid = some p → p.state ≠ .failed)
      | .migrate a => ∀ pid p, c.paths.fromAddrs a = some pid → c.paths.get pid = some p → p.state ≠ .failed
      | _ => True) ∧ Calm (c.step op) l

theorem fit {c : Conn} (hi : Inv c) (h : One [] c) {pid : Nat} {a : Nat × Nat} (ha : c.paths.fromAddrs a = some pid)
    (hf : ∀ pid p, c.paths.fromAddrs a = some pid → c.paths.get pid = some p → p.state ≠ .failed) : One [pid] c := by
  refine ⟨h.one.imp id fun ⟨x, y, _⟩ => ⟨x, y, fun q hq => ?_⟩, h.zero, h.kept⟩
  rw [List.mem_singleton.mp hq]
  obtain ⟨p, hp, _⟩ := (hi.table.addrs a pid).mp ha
  exact ⟨p, hp, hf pid p ha hp⟩

theorem one_step {c : Conn} (hi : Inv c) (h : One [] c) (op : Op) (l : List Op) (hc : Calm c (op :: l)) : One [] (c.step op) := by
  have hw : NoRetire .other := fun _ _ _ _ h => by cases h
  cases op with
  | recv a len pkts =>
    refine one_walk.recv hw hi h (fun ⟨pkt, hp, hs⟩ pid ha => ?_) fun pkt hp f hf cid seq token rpt he => hc.1.1 pkt hp cid seq token rpt (he ▸ hf)
    cases pkt with
    | long | early => cases hs
    | short cid fs nw => exact fit hi h ha (hc.1.2 ⟨cid, fs, nw, hp⟩)
  | send src dst outLen now pkts => exact one_walk.send hw hi h src dst outLen now pkts
  | timeout now due => exact one_timeout h now due
  | probe a => exact one_walk.probePath hi h a
  | migrate a => exact one_walk.migrate hi h a fun pid ha => fit hi h ha hc.1
  | retireDcid seq => exact absurd hc.1 id
  | newScid | setLimit | establish | earlyKey | takeNew | takeRetire | lostNew | lostRetire | close => exact one_walk.easy h _ trivial

theorem one_run {c : Conn} (hi : Inv c) (h : One [] c) (ops : List Op) (hc : Calm c ops) : One [] (c.run ops) := by
  induction ops generalizing c with
  | nil => exact h
  | cons op l ih => exact ih (step_inv hi op) (one_step hi h op l hc) hc.2

theorem active_of_single {c : Conn} (h : Single c.paths) : ∃ i, active c = [i] := by
  obtain ⟨i, p, hp, ha, hu⟩ := h
  refine ⟨i, ?_⟩
  have hmem : ∀ j, j ∈ active c ↔ j = i := by
    intro j
    unfold active
    rw [List.mem_filter, List.mem_range]
    constructor
    · rintro ⟨_, h⟩
      cases hg : c.paths.get j with
      | none => rw [hg] at h; cases h
      | some q =>
        rw [hg] at h
        exact hu j q hg (isActive_iff.mp h).1
    · rintro rfl
      exact ⟨PathMap.get_lt hp, by rw [hp]; exact ha⟩
  have hnd : (active c).Nodup := List.nodup_range.sublist List.filter_sublist
  cases hl : active c with
  | nil => rw [hl] at hmem; exact absurd ((hmem i).mpr rfl) List.not_mem_nil
  | cons x l =>
    have hx : x = i := (hmem x).mp (by rw [hl]; exact List.mem_cons_self)
    cases l with
    | nil => rw [hx]
    | cons y l =>
      have hy : y = i := (hmem y).mp (by rw [hl]; exact List.mem_cons_of_mem _ List.mem_cons_self)
      rw [hl, hx, hy] at hnd
      simp at hnd

/-- Of a client, or a server that may use a connection ID on two paths, one path is active,
whatever is received, lost, probed and moved to. -/
theorem one_partial (server verified : Bool) (a : Nat × Nat) (limit factor recvMax : Nat) (noReuse : Bool) (scid dcid : Bytes)
    (stok dtok : Option Nat) (hr : server = true → noReuse = false) (ops : List Op)
    (hc : Calm (Conn.start server verified a limit factor recvMax noReuse scid dcid stok dtok) ops)
    (hopen : ((Conn.start server verified a limit factor recvMax noReuse scid dcid stok dtok).run ops).closed = false) :
    ∃ i, active ((Conn.start server verified a limit factor recvMax noReuse scid dcid stok dtok).run ops) = [i] := by
  have h0 : One [] (Conn.start server verified a limit factor recvMax noReuse scid dcid stok dtok) := by
    refine ⟨Or.inr ⟨⟨0, _, rfl, rfl, ?_⟩, hr, fun q hq => by cases hq⟩, fun _ => List.mem_cons_self, fun k hk => by cases hk⟩
    intro j q hq _
    cases j with
    | zero => rfl
    | succ n => cases hq
  rcases (one_run (start_inv server verified a limit factor recvMax noReuse scid dcid stok dtok) h0 ops hc).one with h | h
  · rw [h] at hopen; cases hopen
  · exact active_of_single h.1

/-- A client that probes a second path, moves to it before that is answered, and back to
the first when the probes are lost. -/
def tried : List Op :=
  [.setLimit 3, .newScid [3] 7 false, .establish, .recv (1, 2) 100 [.short [1] [.newCid [4] 1 8 0] false], .probe (5, 2), .migrate (5, 2)] ++ lost

example : ∃ i, active (c0.run tried) = [i] := one_partial false false (1, 2) 3 3 3 false [1] [2] none none (fun h => by cases h) tried
  (by
    simp only [Calm, tried, lost, List.cons_append, List.nil_append, and_true, true_and]
    refine ⟨⟨?_, fun _ pid p ha hp => ?_⟩, fun pid p ha hp => ?_⟩
    · intro pkt hp cid seq token rpt hm
      rw [List.mem_singleton.mp hp] at hm
      cases List.mem_singleton.mp hm
      rfl
    · cases ha; cases hp; decide
    · cases ha; cases hp; decide) rfl

example : active (c0.run (tried.take 6)) = [1] ∧ active (c0.run tried) = [0] := by decide +kernel

end Verif.Props.C82
