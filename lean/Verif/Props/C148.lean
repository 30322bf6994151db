import Verif.Path.OwnS

/-!
C148: a connection ID of ours that the peer retired does not keep us from sending. It does:
a second path may use it without its being linked to that path, and when it is retired only
the path it is linked to is told. The claim holds for all histories in which each connection
ID is used from one address and there are no more addresses than paths allowed; neither
condition can be left out.
-/

namespace Verif.Props.C148
open Verif
open Verif.Path
open Verif.Cid (Err)

/-- A server that issued a second connection ID and got one to spare from its client. -/
abbrev s0 : Conn := Conn.start true true (1, 2) 4 3 3 false [1] [2] none none

/-- A packet comes from another address (a copy sent by someone on the way will do), and the
path to it is probed; the probe is lost. -/
def copied : List Op :=
  [.setLimit 4, .newScid [3] 7 false, .newScid [4] 8 false, .establish, .recv (1, 2) 100 [.short [1] [.newCid [5] 1 8 0] true],
   .recv (1, 3) 1200 [.short [1] [.other] false], .send none none 1200 10 [⟨false, true, 1200, 0, some 77⟩]]

/-- The client, where it was all the time, goes on to the second connection ID and retires
the first; the timer for the probe expires. -/
def retired : List Op := copied ++ [.recv (1, 2) 100 [.short [3] [.retire 0] true], .timeout 20 [(1, 1)]]

/-- The path a packet goes on has no source connection ID or one that is stored. -/
def Names (c : Conn) : Prop := ∀ pid p s, c.pickPath none none = some pid → c.paths.get pid = some p → p.scid = some s →
  (c.ids.scids.get s).isSome = true

theorem names_false : ¬ ∀ ops : List Op, (s0.run ops).closed = false → Names (s0.run ops) := by
  intro h
  have := h retired rfl 1 _ 0 rfl rfl rfl
  revert this
  decide +kernel

/-- The server could send before, and has a path that can still be used. -/
example : ((s0.run copied).send none none 1200 15 [⟨false, true, 600, 0, none⟩]).1 = some (0, 600, 0) ∧
    ((s0.run retired).send none none 1200 30 [⟨false, true, 600, 0, some 78⟩]).1 = none ∧
    ((s0.run retired).send (some 1) (some 2) 1200 30 [⟨false, true, 600, 0, none⟩]).1 = some (0, 600, 0) ∧
    (s0.run retired).closed = false ∧ (s0.run retired).ids.scids.inner.map (fun e => (e.seq, e.path)) = [(1, some 0), (2, none)] ∧
    (s0.run retired).paths.slots.map (·.map fun p => (p.active, p.scid, p.dcid, p.requested)) =
      [some (true, some 1, some 0, false), some (false, some 0, some 1, true)] := by decide +kernel

/-- If the source connection ID of that path is not stored, nothing is sent and nothing
changes. -/
theorem stuck (c : Conn) (pid : Nat) (p : Path) (s outLen now : Nat) (pkts : List Conn.Out) (he : c.earlyKey = false)
    (h1 : c.pickPath none none = some pid) (h2 : c.paths.get pid = some p) (h3 : p.scid = some s) (h4 : c.ids.scids.get s = none) :
    c.send none none outLen now pkts = (none, c) := by
  have hf : c.flush = c := by unfold Conn.flush; rw [he]; rfl
  have hh : ∀ b, ∃ e, c.header p b = .error e := by
    intro b
    unfold Conn.header
    split
    · exact ⟨_, rfl⟩
    · split
      · exact ⟨_, rfl⟩
      · rw [h3]
        dsimp only
        rw [h4]
        exact ⟨_, rfl⟩
  unfold Conn.send
  rw [hf]
  dsimp only
  rw [h1]
  dsimp only
  rw [h2]
  dsimp only
  cases pkts with
  | nil => rfl
  | cons o l =>
    have hs : c.sendSingle pid (c.budget p outLen) o now = none ∨ ∃ e, c.sendSingle pid (c.budget p outLen) o now = some (.error e, c) := by
      unfold Conn.sendSingle
      split
      · exact Or.inl rfl
      · rw [h2]
        dsimp only
        obtain ⟨e, he⟩ := hh o.short
        rw [he]
        exact Or.inr ⟨e, rfl⟩
    have hl : c.sendLoop pid none none now 0 (c.budget p outLen) false (o :: l) = (.ok (0, c.budget p outLen, false), c) ∨
        ∃ e, c.sendLoop pid none none now 0 (c.budget p outLen) false (o :: l) = (.error e, c) := by
      unfold Conn.sendLoop
      split
      · exact Or.inl rfl
      · rcases hs with hs | ⟨e, hs⟩ <;> rw [hs]
        · exact Or.inl rfl
        · exact Or.inr ⟨e, rfl⟩
    rcases hl with hl | ⟨e, hl⟩ <;> rw [hl] <;> rfl

/-- For ever, if nothing else happens. -/
theorem stuck_for_ever (c : Conn) (pid : Nat) (p : Path) (s : Nat) (he : c.earlyKey = false)
    (h1 : c.pickPath none none = some pid) (h2 : c.paths.get pid = some p) (h3 : p.scid = some s) (h4 : c.ids.scids.get s = none)
    (ops : List Op) (ho : ∀ op ∈ ops, ∃ outLen now pkts, op = .send none none outLen now pkts) : c.run ops = c := by
  induction ops with
  | nil => rfl
  | cons op l ih =>
    obtain ⟨outLen, now, pkts, rfl⟩ := ho op List.mem_cons_self
    have : c.step (.send none none outLen now pkts) = c := by
      simp only [Conn.step]
      rw [stuck c pid p s outLen now pkts he h1 h2 h3 h4]
    show Conn.run (c.step _) l = c
    rw [this]
    exact ih fun op h => ho op (List.mem_cons_of_mem _ h)

example : (s0.run retired).run [.send none none 1200 30 [⟨false, true, 300, 0, some 78⟩], .send none none 1200 40 [⟨false, true, 50, 0, none⟩]] =
    s0.run retired := stuck_for_ever _ 1 _ 0 rfl rfl rfl rfl (by decide +kernel) _ (by
  intro op ho
  simp only [List.mem_cons, List.mem_nil_iff, or_false] at ho
  rcases ho with h | h <;> exact ⟨_, _, _, h⟩)

/-- Each connection ID is used from one address, `f` of it; the addresses are in `A`, which
are no more than the paths allowed. -/
theorem names_partial (server verified : Bool) (a : Nat × Nat) (limit factor recvMax : Nat) (noReuse : Bool) (scid dcid : Bytes) (stok dtok : Option Nat)
    (f : Bytes → Nat × Nat) (A : List (Nat × Nat)) (ops : List Op) (hs : scid ≠ []) (ha : a ∈ A) (hf : f scid = a) (hA : A.length ≤ limit)
    (ho : ∀ op ∈ ops, op.Apart f A) (hc : ((Conn.start server verified a limit factor recvMax noReuse scid dcid stok dtok).run ops).closed = false) :
    Names ((Conn.start server verified a limit factor recvMax noReuse scid dcid stok dtok).run ops) := by
  have h := OwnS.run (f := f) (A := A) (Or.inr (OwnS.start server verified a limit factor recvMax noReuse scid dcid stok dtok hs ha hA hf)) ops ho
  rcases h with h | h
  · rw [h] at hc; cases hc
  · intro pid p s _ hp hps
    obtain ⟨e, he, hes, _⟩ := h.own pid p s hp hps
    have : _ = some e := Cid.find_seq_of_mem h.nodup he
    rw [hes] at this
    unfold Cid.Deque.get
    rw [this]
    rfl

/-- Stronger: every path's own connection ID is stored and linked to that path. -/
theorem linked_partial (server verified : Bool) (a : Nat × Nat) (limit factor recvMax : Nat) (noReuse : Bool) (scid dcid : Bytes) (stok dtok : Option Nat)
    (f : Bytes → Nat × Nat) (A : List (Nat × Nat)) (ops : List Op) (hs : scid ≠ []) (ha : a ∈ A) (hf : f scid = a) (hA : A.length ≤ limit)
    (ho : ∀ op ∈ ops, op.Apart f A) (hc : ((Conn.start server verified a limit factor recvMax noReuse scid dcid stok dtok).run ops).closed = false)
    (pid : Nat) (p : Path) (s : Nat) (hp : ((Conn.start server verified a limit factor recvMax noReuse scid dcid stok dtok).run ops).paths.get pid = some p)
    (hps : p.scid = some s) :
    ∃ e, ((Conn.start server verified a limit factor recvMax noReuse scid dcid stok dtok).run ops).ids.scids.get s = some e ∧ e.path = some pid ∧
      f e.cid = p.addr := by
  have h := OwnS.run (f := f) (A := A) (Or.inr (OwnS.start server verified a limit factor recvMax noReuse scid dcid stok dtok hs ha hA hf)) ops ho
  rcases h with h | h
  · rw [h] at hc; cases hc
  · obtain ⟨e, he, hes, hep⟩ := h.own pid p s hp hps
    obtain ⟨q, hq, hqa⟩ := h.link e he pid hep
    rw [hp] at hq
    cases hq
    have : _ = some e := Cid.find_seq_of_mem h.nodup he
    rw [hes] at this
    exact ⟨e, this, hep, hqa.symm⟩

/-- A client that uses a connection ID for each of two addresses, and retires one. -/
def moved : List Op :=
  [.setLimit 4, .newScid [3] 7 false, .newScid [4] 8 false, .establish, .recv (1, 2) 100 [.short [1] [.newCid [5] 1 8 0] true],
   .recv (1, 3) 1200 [.short [3] [.other] true], .send none none 1200 10 [⟨false, true, 1200, 0, some 77⟩],
   .recv (1, 3) 100 [.short [3] [.retire 0, .response 77] true], .timeout 20 [(0, 1)]]

/-- From which address. -/
def home (cid : Bytes) : Nat × Nat := if cid = [3] then (1, 3) else if cid = [4] then (1, 4) else if cid = [5] then (1, 5) else (1, 2)

theorem moved_apart : ∀ op ∈ moved, op.Apart home [(1, 2), (1, 3)] := by
  intro op ho
  simp only [moved, List.mem_cons, List.mem_nil_iff, or_false] at ho
  rcases ho with h | h | h | h | h | h | h | h | h <;> subst h <;> simp [Op.Apart, home]

example : Names (s0.run moved) := names_partial _ _ _ _ _ _ _ _ _ _ _ home [(1, 2), (1, 3)] moved (by decide) (by decide) (by decide) (by decide)
  moved_apart (by decide +kernel)

example : (s0.run moved).paths.slots.map (·.map fun p => (p.active, p.scid)) = [some (false, none), some (true, some 1)] ∧
    ((s0.run moved).send none none 1200 30 [⟨false, true, 600, 0, none⟩]).1 = some (1, 600, 0) := by decide +kernel

/-- A server that allows three paths. -/
abbrev s1 : Conn := Conn.start true true (1, 2) 3 3 3 false [1] [2] none none

/-- Four addresses, with a connection ID each: the path of the second is dropped for the
fourth, which takes its slot, and when the second is heard again it gets the slot of the
third. The connection ID stays linked to the first slot; it is retired, and new connection
IDs of the client let the server probe the paths. -/
def crowded : List Op :=
  [.setLimit 4, .newScid [3] 7 false, .newScid [4] 8 false, .newScid [5] 9 false, .establish,
   .recv (1, 3) 1200 [.short [3] [.other] false], .recv (1, 4) 1200 [.short [4] [.other] false], .recv (1, 5) 1200 [.short [5] [.other] false],
   .recv (1, 2) 100 [.short [1] [.newCid [6] 1 8 0] true], .recv (1, 3) 1200 [.short [3] [.other] false],
   .recv (1, 2) 100 [.short [1] [.retire 1] true], .recv (1, 2) 100 [.short [1] [.newCid [7] 2 9 0] true],
   .send none none 1200 10 [⟨false, true, 1200, 0, some 77⟩]]

theorem crowded_apart : ∀ op ∈ crowded, op.Apart home [(1, 2), (1, 3), (1, 4), (1, 5)] := by
  intro op ho
  simp only [crowded, List.mem_cons, List.mem_nil_iff, or_false] at ho
  rcases ho with h | h | h | h | h | h | h | h | h | h | h | h | h <;> subst h <;> simp [Op.Apart, home]

/-- One address for each connection ID is not enough. -/
theorem names_false_apart : ¬ ∀ (f : Bytes → Nat × Nat) (A : List (Nat × Nat)) (ops : List Op), (1, 2) ∈ A → f [1] = (1, 2) →
    (∀ op ∈ ops, op.Apart f A) → (s1.run ops).closed = false → Names (s1.run ops) := by
  intro h
  have := h home _ crowded (by decide) (by decide) crowded_apart (by decide +kernel) 2 _ 1 rfl rfl rfl
  revert this
  decide +kernel

example : ((s1.run crowded).send none none 1200 30 [⟨false, true, 600, 0, some 78⟩]).1 = none ∧
    ((s1.run crowded).send (some 1) (some 2) 1200 30 [⟨false, true, 600, 0, none⟩]).1 = some (0, 600, 0) ∧
    (s1.run crowded).closed = false := by decide +kernel

end Verif.Props.C148
