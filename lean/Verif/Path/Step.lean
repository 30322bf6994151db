import Verif.Path.Api

/-!
The invariant holds throughout the life of a connection.
-/

namespace Verif.Path
open Verif
open Verif.Cid (Ids Err Entry Deque)

variable {c c' c'' : Conn}

theorem SameId.fam : Fam (fun _ => SameId) (fun _ _ => True) (fun _ => True) True where
  elem := SameId.elem
  same _ _ _ h := h
  comp _ _ _ _ _ h1 h2 := h1.trans h2
  mono _ _ _ _ _ h := h
  fcomp _ _ _ _ _ _ := trivial
  fmono _ _ _ _ _ := trivial
  verify _ _ := ⟨rfl, rfl, rfl⟩
  credit _ _ _ := ⟨rfl, rfl, rfl⟩
  fresh _ _ _ _ _ _ := trivial

theorem SameId.quiet : Quiet SameId (fun _ => True) where
  refl _ := ⟨rfl, rfl, rfl⟩
  trans _ _ _ h1 h2 := h1.trans h2
  same _ _ h := h
  fcomp _ _ _ _ := trivial
  dcid _ _ := ⟨rfl, rfl, rfl⟩
  act _ _ := ⟨rfl, rfl, rfl⟩
  start p h := SameId.elem.start p h
  request _ := ⟨rfl, rfl, rfl⟩
  timeout p now rtt s := SameId.onTimeout p now rtt s
  notified _ := ⟨rfl, rfl, rfl⟩
  fresh _ _ _ _ _ := trivial

theorem SameId.sentAll (p : Path) (os : List Conn.Out) (now : Nat) : SameId p (p.sentAll os now) := by
  unfold Path.sentAll
  induction os generalizing p with
  | nil => exact ⟨rfl, rfl, rfl⟩
  | cons o l ih => exact (SameId.sent p o now).trans (ih _)

/-- What `send` does after the packets kept: it puts some packets in a datagram. -/
theorem send_spec (c : Conn) (src dst : Option Nat) (outLen now : Nat) (pkts : List Conn.Out) :
    ((c.send src dst outLen now pkts).2 = c.flush ∧ (c.send src dst outLen now pkts).1 = none) ∨
    ∃ pid p os, c.flush.pickPath src dst = some pid ∧ c.flush.paths.get pid = some p ∧ os <+: pkts ∧
      (c.send src dst outLen now pkts).2 = { c.flush with paths := c.flush.paths.upd pid (·.sentAll os now) } ∧
      (∀ o ∈ os, 0 < o.size) ∧ (os.map (·.size)).sum ≤ c.flush.budget p outLen ∧
      ((∃ o ∈ os, o.short = true) → ∃ r, (c.send src dst outLen now pkts).1 = some r) ∧
      ∀ r, (c.send src dst outLen now pkts).1 = some r →
        r = (pid, (os.map (·.size)).sum + Conn.padLen (os.map (·.size)).sum (c.flush.budget p outLen - (os.map (·.size)).sum) (os.any (·.initial)),
          Conn.padLen (os.map (·.size)).sum (c.flush.budget p outLen - (os.map (·.size)).sum) (os.any (·.initial))) := by
  unfold Conn.send
  dsimp only
  generalize c.flush = c
  split
  · exact Or.inl ⟨rfl, rfl⟩
  · rename_i pid hpid
    split
    · exact Or.inl ⟨rfl, rfl⟩
    · rename_i p hp
      right
      obtain ⟨os, h1, h2, h3, h4, h6, h5⟩ := sendLoop_spec c pid src dst now 0 (c.budget p outLen) false pkts
      refine ⟨pid, p, os, hpid, hp, h1, ?_, h3, h4, ?_, ?_⟩
      · split
        · rename_i heq; rw [heq] at h2; exact h2
        · rename_i heq
          rw [heq] at h2
          split
          · exact h2
          · exact h2
      · rintro ⟨o, ho, hsh⟩
        obtain ⟨⟨d, l, i⟩, hx⟩ := h6 ⟨o, ho, hsh⟩
        have hd := (h5 d l i hx).1
        have hz : 0 < (os.map (·.size)).sum := by
          have := mem_le_sum (List.mem_map.mpr ⟨o, ho, rfl⟩ : o.size ∈ os.map (·.size))
          have := h3 o ho
          omega
        split
        · rename_i heq; rw [heq] at hx; cases hx
        · rename_i heq
          rw [heq] at hx
          cases hx
          rw [if_neg (by omega)]
          exact ⟨_, rfl⟩
      · intro r hr
        split at hr
        · cases hr
        · rename_i d l i c1 heq
          rw [heq] at h5
          obtain ⟨a1, a2, a3⟩ := h5 d l i rfl
          split at hr
          · cases hr
          · have hr := Option.some.inj hr
            rw [← hr, a1, a2, a3]
            simp

theorem send_inv (h : Inv c) (src dst : Option Nat) (outLen now : Nat) (pkts : List Conn.Out) : Inv (c.send src dst outLen now pkts).2 := by
  have hf := (SameId.fam.flush h).inv
  rcases send_spec c src dst outLen now pkts with ⟨h1, _⟩ | ⟨pid, p, os, _, _, _, h1, _⟩
  · rw [h1]; exact hf
  · rw [h1]
    exact (Moves.upd (F := fun _ => True) hf (fun _ => ⟨rfl, rfl, rfl⟩) (fun _ _ h => h) fun p _ => SameId.sentAll p os now).inv

/-- The invariant depends on few parts of the connection. -/
theorem Inv.flags (h : Inv c) (e k cl : Bool) (l : List Kept) :
    Inv { c with established := e, earlyKey := k, closed := cl, kept := l } := ⟨h.1, h.2, h.3, h.4, h.5, h.6⟩

theorem Inv.ids (h : Inv c) {ids : Ids} (hl : Linked c.paths.slots.length ids) : Inv { c with ids := ids } := ⟨h.1, h.2, h.3, h.4, hl, h.6⟩

theorem step_inv (h : Inv c) (op : Op) : Inv (c.step op) := by
  cases op with
  | recv a len pkts => exact (SameId.fam.recv h (fun _ _ _ _ => trivial) fun _ _ => trivial).inv
  | send src dst outLen now pkts => exact send_inv h src dst outLen now pkts
  | timeout now due => exact (SameId.quiet.onTimeout h now due).inv
  | probe a => exact (SameId.quiet.probePath h a).inv
  | migrate a => exact (SameId.quiet.migrate h a).inv
  | retireDcid seq => exact (SameId.quiet.retireDcid h seq).inv
  | newScid cid token r => exact h.ids (Linked.newScid h.linked cid (some token) true r)
  | setLimit v => exact h.ids (Linked.setSourceLimit h.linked v)
  | establish => exact h.flags true c.earlyKey c.closed []
  | earlyKey => exact h.flags c.established true c.closed c.kept
  | takeNew => exact h.ids (Linked.sendNew h.linked)
  | takeRetire seq u => exact h.ids (Linked.sendRetire h.linked seq u)
  | lostNew seq => exact h.ids (Linked.markAdvertise h.linked seq true)
  | lostRetire seq => exact h.ids (Linked.markRetire h.linked seq true)
  | close => exact h.flags c.established c.earlyKey true c.kept

theorem run_inv (h : Inv c) (ops : List Op) : Inv (c.run ops) := by
  induction ops generalizing c with
  | nil => exact h
  | cons op l ih => exact ih (step_inv h op)

theorem step_maxPaths (h : Inv c) (op : Op) : (c.step op).paths.maxPaths = c.paths.maxPaths := by
  cases op with
  | recv a len pkts => exact (SameId.fam.recv h (fun _ _ _ _ => trivial) fun _ _ => trivial).conf.maxPaths
  | send src dst outLen now pkts =>
    have hf := (SameId.fam.flush h).conf.maxPaths
    rcases send_spec c src dst outLen now pkts with ⟨h1, _⟩ | ⟨pid, p, os, _, _, _, h1, _⟩
    · simp only [Conn.step]; rw [h1]; exact hf
    · simp only [Conn.step]; rw [h1]; exact hf
  | timeout now due => exact (SameId.quiet.onTimeout h now due).conf.maxPaths
  | probe a => exact (SameId.quiet.probePath h a).conf.maxPaths
  | migrate a => exact (SameId.quiet.migrate h a).conf.maxPaths
  | retireDcid seq => exact (SameId.quiet.retireDcid h seq).conf.maxPaths
  | newScid | setLimit | establish | earlyKey | takeNew | takeRetire | lostNew | lostRetire | close => rfl

theorem run_maxPaths (h : Inv c) (ops : List Op) : (c.run ops).paths.maxPaths = c.paths.maxPaths := by
  induction ops generalizing c with
  | nil => rfl
  | cons op l ih => exact (ih (step_inv h op)).trans (step_maxPaths h op)

theorem start_inv (server verified : Bool) (a : Nat × Nat) (limit factor recvMax : Nat) (noReuse : Bool) (scid dcid : Bytes) (stok dtok : Option Nat) :
    Inv (Conn.start server verified a limit factor recvMax noReuse scid dcid stok dtok) := by
  have hget : ∀ i p, (Conn.start server verified a limit factor recvMax noReuse scid dcid stok dtok).paths.get i = some p →
      i = 0 ∧ p.uid = 0 ∧ (p.laddr, p.paddr) = a := by
    intro i p hp
    cases i with
    | zero => cases hp; exact ⟨rfl, rfl, rfl⟩
    | succ n => cases hp
  refine ⟨⟨?_, rfl, ?_, ?_⟩, ?_, ?_, ?_, ⟨?_, ?_⟩, rfl⟩
  · intro i hi
    have : i = 0 := by
      have : (Conn.start server verified a limit factor recvMax noReuse scid dcid stok dtok).paths.slots.length = 1 := rfl
      omega
    subst this
    exact ⟨_, rfl⟩
  · intro b i
    constructor
    · intro h
      unfold PathMap.fromAddrs at h
      have ha : (Conn.start server verified a limit factor recvMax noReuse scid dcid stok dtok).paths.addrs = [(a, 0)] := rfl
      rw [ha] at h
      by_cases hb : a = b
      · subst hb
        simp at h
        subst h
        exact ⟨_, rfl, rfl⟩
      · rw [List.find?_cons_of_neg (by simpa using hb)] at h
        cases h
    · rintro ⟨p, hp, hpa⟩
      obtain ⟨h1, _, h3⟩ := hget i p hp
      subst h1
      rw [← hpa, h3]
      unfold PathMap.fromAddrs
      have ha : (Conn.start server verified a limit factor recvMax noReuse scid dcid stok dtok).paths.addrs = [(a, 0)] := rfl
      rw [ha]
      simp
  · show 1 ≤ max 1 limit
    omega
  · exact Nat.zero_lt_one
  · intro i p hp
    rw [(hget i p hp).2.1]
    exact Nat.zero_lt_one
  · intro i j p q hp hq _
    rw [(hget i p hp).1, (hget j q hq).1]
  · intro e he k hk
    rw [List.mem_singleton.mp he] at hk
    cases hk
    exact Nat.zero_lt_one
  · intro e he k hk
    rw [List.mem_singleton.mp he] at hk
    cases hk
    exact Nat.zero_lt_one

end Verif.Path
