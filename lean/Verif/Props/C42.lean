import Verif.Path.Bytes
import Verif.Props.C41

/-!
C42: the anti-amplification limit. It does not hold: padding after Initial packets is not
counted, and 0-RTT packets that had to wait for their key are counted twice. The theorems
marked partial account for both.
-/

namespace Verif.Props.C42
open Verif Verif.Path Verif.Props.C41

variable {verified noReuse : Bool} {a : Nat × Nat} {limit factor recvMax : Nat} {scid dcid : Bytes} {stok dtok : Option Nat}

/-- Whether there is a path `uid`, between the addresses `b`. -/
def on (c : Conn) (uid : Nat) (b : Nat × Nat) : Bool := c.paths.slots.any fun s => s.any fun p => p.uid == uid && (p.laddr, p.paddr) == b

/-- The bytes of a datagram received on path `uid`; the datagram that makes the path counts. -/
def got (uid : Nat) (c : Conn) : Op → Nat
  | .recv b len pkts => if on (c.step (.recv b len pkts)) uid b then len else 0
  | _ => 0

/-- The bytes of 0-RTT packets received earlier that are now processed. -/
def again (uid : Nat) (c : Conn) : Op → Nat
  | .recv b len pkts => if c.earlyKey then ((c.kept.filter fun k => on (c.step (.recv b len pkts)) uid k.addr).map (·.size)).sum else 0
  | .send s d n t pkts => if c.earlyKey then ((c.kept.filter fun k => on (c.step (.send s d n t pkts)) uid k.addr).map (·.size)).sum else 0
  | _ => 0

/-- The bytes of a datagram sent on path `uid`. -/
def put (uid : Nat) (c : Conn) : Op → Nat
  | .send s d n t pkts =>
    match (c.send s d n t pkts).1 with
    | some (pid, total, _) => if ((c.send s d n t pkts).2.paths.get pid).any (·.uid == uid) then total else 0
    | none => 0
  | _ => 0

/-- The bytes of it that are padding after its packets. -/
def pad (uid : Nat) (c : Conn) : Op → Nat
  | .send s d n t pkts =>
    match (c.send s d n t pkts).1 with
    | some (pid, _, k) => if ((c.send s d n t pkts).2.paths.get pid).any (·.uid == uid) then k else 0
    | none => 0
  | _ => 0

/-- The sum over a history. -/
def total (f : Conn → Op → Nat) (c : Conn) : List Op → Nat
  | [] => 0
  | op :: l => f c op + total f (c.step op) l

theorem total_snoc (f : Conn → Op → Nat) (c : Conn) (ops : List Op) (op : Op) :
    total f c (ops ++ [op]) = total f c ops + f (c.run ops) op := by
  induction ops generalizing c with
  | nil => simp [total, Conn.run]
  | cons x l ih =>
    simp only [List.cons_append, total]
    rw [ih]
    have : c.run (x :: l) = (c.step x).run l := rfl
    rw [this]
    omega

theorem on_iff {c : Conn} (h : Inv c) {i : Nat} {q : Path} (hq : c.paths.get i = some q) (b : Nat × Nat) :
    on c q.uid b = decide ((q.laddr, q.paddr) = b) := by
  unfold on
  rw [Bool.eq_iff_iff, List.any_eq_true]
  constructor
  · rintro ⟨s, hs, hp⟩
    cases s with
    | none => cases hp
    | some p =>
      obtain ⟨j, hj, he⟩ := List.getElem_of_mem hs
      have hget : c.paths.get j = some p := by
        unfold PathMap.get
        rw [List.getElem?_eq_getElem hj, he]
        rfl
      simp at hp
      have := h.inj j i p q hget hq hp.1
      subst this
      rw [hget] at hq
      cases hq
      simp [hp.2]
  · intro hb
    have hb : (q.laddr, q.paddr) = b := by simpa using hb
    refine ⟨some q, ?_, by simp [hb]⟩
    unfold PathMap.get at hq
    cases hs : c.paths.slots[i]? with
    | none => rw [hs] at hq; cases hq
    | some s =>
      rw [hs] at hq
      have : s = some q := hq
      rw [← this]
      exact List.mem_of_getElem? hs

theorem again_amt (factor : Nat) (l : List Kept) (b : Nat × Nat) (t : Nat × Nat → Bool) (ht : ∀ x, t x = decide (b = x)) :
    Amt.again factor l b = factor * ((l.filter fun k => t k.addr).map (·.size)).sum := by
  induction l with
  | nil => rfl
  | cons k l ih =>
    simp only [Amt.again, Amt.add, Amt.one, ih, List.filter_cons, ht]
    by_cases hb : b = k.addr
    · simp [hb, Nat.mul_add, Nat.mul_comm]
    · simp [hb]

/-- Paths made later have sent nothing. -/
theorem put_zero {c : Conn} (h : Inv c) (op : Op) (uid : Nat) (hu : (c.step op).nextUid ≤ uid) : put uid c op = 0 := by
  cases op with
  | send s d n t pkts =>
    simp only [put]
    split
    · rename_i pid tot k hr
      split
      · rename_i hp
        cases hq : (c.send s d n t pkts).2.paths.get pid with
        | none => rw [hq] at hp; cases hp
        | some q =>
          rw [hq] at hp
          have hp : q.uid = uid := by simpa using hp
          have := (step_inv h (.send s d n t pkts)).uids pid q hq
          omega
      · rfl
    · rfl
  | _ => rfl

theorem step_next {c : Conn} (h : Inv c) (op : Op) : c.nextUid ≤ (c.step op).nextUid := by
  cases op with
  | recv b len pkts => exact (SameId.fam.recv h (fun _ _ _ _ => trivial) fun _ _ => trivial).next
  | send src dst outLen now pkts =>
    have hf := (SameId.fam.flush h).next
    simp only [Conn.step]
    rcases send_spec c src dst outLen now pkts with ⟨h1, _⟩ | ⟨pid, p, os, _, _, _, h1, _⟩
    · rw [h1]; exact hf
    · rw [h1]; exact hf
  | timeout now due => exact (SameId.quiet.onTimeout h now due).next
  | probe a => exact (SameId.quiet.probePath h a).next
  | migrate a => exact (SameId.quiet.migrate h a).next
  | retireDcid seq => exact (SameId.quiet.retireDcid h seq).next
  | newScid | setLimit | establish | earlyKey | takeNew | takeRetire | lostNew | lostRetire | close => exact Nat.le_refl _

/-- The configuration does not change. -/
theorem step_conf {c : Conn} (h : Inv c) (op : Op) : (c.step op).server = c.server ∧ (c.step op).factor = c.factor ∧
    (op ≠ .earlyKey → (c.step op).earlyKey = c.earlyKey) := by
  have of : ∀ {c' : Conn}, SameConf c c' → c'.server = c.server ∧ c'.factor = c.factor ∧ (op ≠ .earlyKey → c'.earlyKey = c.earlyKey) :=
    fun h => ⟨h.server, h.factor, fun _ => h.earlyKey⟩
  cases op with
  | recv b len pkts => exact of (SameId.fam.recv h (fun _ _ _ _ => trivial) fun _ _ => trivial).conf
  | send src dst outLen now pkts =>
    have hf := (SameId.fam.flush h).conf
    simp only [Conn.step]
    rcases send_spec c src dst outLen now pkts with ⟨h1, _⟩ | ⟨pid, p, os, _, _, _, h1, _⟩
    · rw [h1]; exact of hf
    · rw [h1]; exact of ⟨hf.server, hf.factor, hf.noReuse, hf.recvMax, hf.earlyKey, hf.maxPaths⟩
  | timeout now due => exact of (SameId.quiet.onTimeout h now due).conf
  | probe a => exact of (SameId.quiet.probePath h a).conf
  | migrate a => exact of (SameId.quiet.migrate h a).conf
  | retireDcid seq => exact of (SameId.quiet.retireDcid h seq).conf
  | earlyKey => exact ⟨rfl, rfl, fun h => absurd rfl h⟩
  | newScid | setLimit | establish | takeNew | takeRetire | lostNew | lostRetire | close => exact ⟨rfl, rfl, fun _ => rfl⟩

theorem run_conf {c : Conn} (h : Inv c) (ops : List Op) : (c.run ops).server = c.server ∧ (c.run ops).factor = c.factor := by
  induction ops using snocInd with
  | nil => exact ⟨rfl, rfl⟩
  | snoc ops op ih =>
    rw [Conn.run_snoc]
    obtain ⟨h1, h2, _⟩ := step_conf (run_inv h ops) op
    exact ⟨h1.trans ih.1, h2.trans ih.2⟩

theorem put_later {c : Conn} (h : Inv c) (ops : List Op) (uid : Nat) (hu : (c.run ops).nextUid ≤ uid) : total (put uid) c ops = 0 := by
  induction ops using snocInd with
  | nil => rfl
  | snoc ops op ih =>
    rw [Conn.run_snoc] at hu
    have h1 := run_inv h ops
    have := step_next h1 op
    rw [total_snoc, ih (by omega), put_zero h1 op uid hu]

/-- What one operation does to the credit of a path. -/
theorem step_credit {c : Conn} (h : Inv c) (hs : c.server = true) (op : Op) (i : Nat) (q : Path) (hq : (c.step op).paths.get i = some q)
    (hv : q.verified = false) :
    (∃ p, c.paths.get i = some p ∧ p.uid = q.uid ∧ p.verified = false ∧
      q.maxSend + put q.uid c op ≤ p.maxSend + c.factor * (got q.uid c op + again q.uid c op) + pad q.uid c op) ∨
    (c.nextUid ≤ q.uid ∧ q.maxSend + put q.uid c op ≤ c.factor * (got q.uid c op + again q.uid c op) + pad q.uid c op) := by
  have hstep := step_inv h op
  have hon := on_iff hstep hq
  have zero : ∀ {c' : Conn}, Moves (Crel Amt.zero) (Cnew Amt.zero) c c' → c'.paths.get i = some q → put q.uid c op = 0 →
      (∃ p, c.paths.get i = some p ∧ p.uid = q.uid ∧ p.verified = false ∧
        q.maxSend + put q.uid c op ≤ p.maxSend + c.factor * (got q.uid c op + again q.uid c op) + pad q.uid c op) ∨
      (c.nextUid ≤ q.uid ∧ q.maxSend + put q.uid c op ≤ c.factor * (got q.uid c op + again q.uid c op) + pad q.uid c op) := by
    intro c' hm hq hp
    rw [hp]
    rcases hm.back i q hq with ⟨p, hp, r⟩ | ⟨hu, f⟩
    · obtain ⟨r1, r2⟩ := r.2 hv
      have r2 : q.maxSend ≤ p.maxSend + 0 := r2
      exact Or.inl ⟨p, hp, r.1.1.symm, r1, by omega⟩
    · have f : q.maxSend ≤ 0 := f hv
      exact Or.inr ⟨hu, by omega⟩
  have same : c.paths.get i = some q → put q.uid c op = 0 →
      (∃ p, c.paths.get i = some p ∧ p.uid = q.uid ∧ p.verified = false ∧
        q.maxSend + put q.uid c op ≤ p.maxSend + c.factor * (got q.uid c op + again q.uid c op) + pad q.uid c op) ∨
      (c.nextUid ≤ q.uid ∧ q.maxSend + put q.uid c op ≤ c.factor * (got q.uid c op + again q.uid c op) + pad q.uid c op) :=
    fun h hp => Or.inl ⟨q, h, rfl, hv, by rw [hp]; omega⟩
  cases op with
  | recv b len pkts =>
    have hm := Crel.fam.recv (a := b) (len := len) (pkts := pkts) h (fun _ _ _ _ => trivial) fun _ _ => trivial
    have hone := Crel.fam.recvOne (a := b) (len := len) (pkts := pkts) h (fun _ _ _ _ => trivial) fun _ _ => trivial
    have hag : (c.recvOne b len pkts).2.againAmt = c.againAmt := againAmt_recvOne c hone.conf fun hk => recvOne_kept hk b len pkts
    rw [hag] at hm
    have hamt : ((Amt.one b (len * c.factor)).add c.againAmt) (q.laddr, q.paddr) =
        c.factor * (got q.uid c (.recv b len pkts) + again q.uid c (.recv b len pkts)) := by
      simp only [Amt.add, Amt.one, got, again, hon]
      have h1 : c.againAmt (q.laddr, q.paddr) = c.factor *
          (if c.earlyKey = true then ((c.kept.filter fun k => decide ((q.laddr, q.paddr) = k.addr)).map (·.size)).sum else 0) := by
        unfold Conn.againAmt
        split
        · exact again_amt c.factor c.kept (q.laddr, q.paddr) (fun x => decide ((q.laddr, q.paddr) = x)) fun _ => rfl
        · rfl
      rw [h1, Nat.mul_add]
      congr 1
      by_cases hb : (q.laddr, q.paddr) = b
      · simp [hb, Nat.mul_comm]
      · simp [hb]
    rcases hm.back i q hq with ⟨p, hp, r⟩ | ⟨hu, f⟩
    · obtain ⟨r1, r2⟩ := r.2 hv
      rw [← r.1.2.1, ← r.1.2.2, hamt] at r2
      exact Or.inl ⟨p, hp, r.1.1.symm, r1, by simp only [put, pad]; omega⟩
    · have f := f hv
      rw [hamt] at f
      exact Or.inr ⟨hu, by simp only [put, pad]; omega⟩
  | send src dst outLen now pkts =>
    have hf := Crel.fam.flush h
    have hamt : c.againAmt (q.laddr, q.paddr) = c.factor * again q.uid c (.send src dst outLen now pkts) := by
      simp only [again, hon]
      unfold Conn.againAmt
      split
      · exact again_amt c.factor c.kept (q.laddr, q.paddr) (fun x => decide ((q.laddr, q.paddr) = x)) fun _ => rfl
      · rfl
    have hgot : got q.uid c (.send src dst outLen now pkts) = 0 := rfl
    rw [hgot, Nat.zero_add, ← hamt]
    -- after the packets kept
    have after : ∀ p', c.flush.paths.get i = some p' → SameId p' q → p'.verified = false →
        q.maxSend + put q.uid c (.send src dst outLen now pkts) ≤ p'.maxSend + pad q.uid c (.send src dst outLen now pkts) →
        (∃ p, c.paths.get i = some p ∧ p.uid = q.uid ∧ p.verified = false ∧
          q.maxSend + put q.uid c (.send src dst outLen now pkts) ≤
            p.maxSend + c.againAmt (q.laddr, q.paddr) + pad q.uid c (.send src dst outLen now pkts)) ∨
        (c.nextUid ≤ q.uid ∧ q.maxSend + put q.uid c (.send src dst outLen now pkts) ≤
            c.againAmt (q.laddr, q.paddr) + pad q.uid c (.send src dst outLen now pkts)) := by
      intro p' hp' hid hv' hle
      rcases hf.back i p' hp' with ⟨p, hp, r⟩ | ⟨hu, f⟩
      · obtain ⟨r1, r2⟩ := r.2 hv'
        rw [← r.1.2.1, ← r.1.2.2, ← hid.2.1, ← hid.2.2] at r2
        exact Or.inl ⟨p, hp, by rw [hid.1, r.1.1], r1, by omega⟩
      · have f := f hv'
        rw [← hid.2.1, ← hid.2.2] at f
        exact Or.inr ⟨by rw [hid.1]; exact hu, by omega⟩
    have hq0 := hq
    simp only [Conn.step] at hq0
    rcases send_spec c src dst outLen now pkts with ⟨h1, h2⟩ | ⟨pid, p, os, _, hp, _, h1, _, h4, _, h5⟩
    · rw [h1] at hq0
      exact after q hq0 ⟨rfl, rfl, rfl⟩ hv (by simp only [put, h2]; omega)
    · rw [h1] at hq0
      have hq0 : (c.flush.paths.upd pid (·.sentAll os now)).get i = some q := hq0
      rw [PathMap.get_upd] at hq0
      split at hq0
      · rename_i hpi
        subst hpi
        rw [hp] at hq0
        have hq0 : p.sentAll os now = q := Option.some.inj hq0
        obtain ⟨s1, s2⟩ := sentAll_send p os now
        have hid := SameId.sentAll p os now
        rw [hq0] at s1 s2 hid
        have hpv : p.verified = false := by rw [← s2]; exact hv
        have hbud : c.flush.budget p outLen ≤ p.maxSend := by
          unfold Conn.budget
          rw [if_pos ⟨hpv, by rw [hf.conf.server]; exact hs⟩]
          exact Nat.min_le_right _ _
        have hput : put q.uid c (.send src dst outLen now pkts) ≤ (os.map (·.size)).sum + pad q.uid c (.send src dst outLen now pkts) := by
          simp only [put, pad]
          cases hr : (c.send src dst outLen now pkts).1 with
          | none => exact Nat.zero_le _
          | some r =>
            have := h5 r hr
            subst this
            dsimp only
            split <;> omega
        exact after p hp hid hpv (by omega)
      · rename_i hpi
        have hput : put q.uid c (.send src dst outLen now pkts) = 0 := by
          simp only [put]
          cases hr : (c.send src dst outLen now pkts).1 with
          | none => rfl
          | some r =>
            have := h5 r hr
            subst this
            dsimp only
            split
            · rename_i hu
              exfalso
              cases hg : (c.send src dst outLen now pkts).2.paths.get pid with
              | none => rw [hg] at hu; cases hu
              | some x =>
                rw [hg] at hu
                have hu : x.uid = q.uid := by simpa using hu
                exact hpi (hstep.inj pid i x q hg hq hu)
            · rfl
        exact after q hq0 ⟨rfl, rfl, rfl⟩ hv (by rw [hput]; omega)
  | timeout now due => exact zero (Crel.quiets.onTimeout h now due) hq rfl
  | probe b => exact zero (Crel.quiets.probePath h b) hq rfl
  | migrate b => exact zero (Crel.quiets.migrate h b) hq rfl
  | retireDcid seq => exact zero (Crel.quiets.retireDcid h seq) hq rfl
  | newScid | setLimit | establish | earlyKey | takeNew | takeRetire | lostNew | lostRetire | close => exact same hq rfl

/-- What has been sent on a path to an address that is not verified: at most the factor
times what was received on it, where 0-RTT packets count again when they are processed
after a wait for their key, and besides that padding. -/
theorem credit_partial (ops : List Op) (i : Nat) (q : Path) :
    let c0 := Conn.start true verified a limit factor recvMax noReuse scid dcid stok dtok
    (c0.run ops).paths.get i = some q → q.verified = false →
    q.maxSend + total (put q.uid) c0 ops ≤ factor * (total (got q.uid) c0 ops + total (again q.uid) c0 ops) + total (pad q.uid) c0 ops := by
  intro c0
  have h0 : Inv c0 := start_inv ..
  have conf : ∀ ops, (c0.run ops).factor = factor ∧ (c0.run ops).server = true := by
    intro ops
    exact ⟨(run_conf h0 ops).2, (run_conf h0 ops).1⟩
  induction ops using snocInd generalizing i q with
  | nil =>
    intro hq _
    cases i with
    | zero => cases hq; exact Nat.zero_le _
    | succ n => cases hq
  | snoc ops op ih =>
    intro hq hv
    rw [Conn.run_snoc] at hq
    have h1 := run_inv h0 ops
    simp only [total_snoc]
    rcases step_credit h1 (conf ops).2 op i q hq hv with ⟨p, hp, hu, hpv, hle⟩ | ⟨hu, hle⟩
    · have := ih i p hp hpv
      rw [hu] at this
      rw [(conf ops).1] at hle
      rw [show ∀ x y z w : Nat, factor * (x + y + (z + w)) = factor * (x + z) + factor * (y + w) by
        intro x y z w; rw [← Nat.mul_add]; congr 1; omega]
      omega
    · rw [put_later h0 ops q.uid hu, (conf ops).1] at *
      rw [show ∀ x y z w : Nat, factor * (x + y + (z + w)) = factor * (x + z) + factor * (y + w) by
        intro x y z w; rw [← Nat.mul_add]; congr 1; omega]
      omega

theorem sent_partial (ops : List Op) (i : Nat) (q : Path) :
    let c0 := Conn.start true verified a limit factor recvMax noReuse scid dcid stok dtok
    (c0.run ops).paths.get i = some q → q.verified = false →
    total (put q.uid) c0 ops ≤ factor * (total (got q.uid) c0 ops + total (again q.uid) c0 ops) + total (pad q.uid) c0 ops := by
  intro c0 hq hv
  have := credit_partial (verified := verified) (noReuse := noReuse) (a := a) (limit := limit) (factor := factor) (recvMax := recvMax)
    (scid := scid) (dcid := dcid) (stok := stok) (dtok := dtok) ops i q hq hv
  exact Nat.le_trans (Nat.le_add_left _ _) this

theorem total_zero {f : Conn → Op → Nat} {c : Conn} {ops : List Op} (P : Conn → Prop) (hc : P c) (hP : ∀ c, ∀ op ∈ ops, P c → P (c.step op))
    (h : ∀ c, ∀ op ∈ ops, P c → f c op = 0) : total f c ops = 0 := by
  induction ops generalizing c with
  | nil => rfl
  | cons op l ih =>
    simp only [total]
    rw [h c op List.mem_cons_self hc, ih (hP c op List.mem_cons_self hc) (fun c op ho => hP c op (List.mem_cons_of_mem _ ho))
      fun c op ho => h c op (List.mem_cons_of_mem _ ho)]

/-- Padding is only added to a datagram with an Initial packet, and fills it to at most
1200 bytes. -/
theorem pad_small (c : Conn) (src dst : Option Nat) (outLen now : Nat) (pkts : List Conn.Out) (pid n k : Nat)
    (h : (c.send src dst outLen now pkts).1 = some (pid, n, k)) (hk : 0 < k) : n ≤ 1200 ∧ k < n ∧ ∃ o ∈ pkts, o.initial = true := by
  rcases send_spec c src dst outLen now pkts with ⟨_, h2⟩ | ⟨pid', p, os, _, hp, hpre, h1, hpos, h4, _, h5⟩
  · rw [h2] at h; cases h
  · have h5 := h5 _ h
    obtain ⟨-, h5, h6⟩ := Prod.mk.injEq .. ▸ Prod.mk.injEq .. ▸ h5
    unfold Conn.padLen at h5 h6
    split at h6
    · rename_i hc
      rw [if_pos hc] at h5
      obtain ⟨ha, hb, hd⟩ := hc
      simp only [minInitial] at *
      obtain ⟨o, ho, hi⟩ := List.any_eq_true.mp ha
      have := mem_le_sum (List.mem_map.mpr ⟨o, ho, rfl⟩ : o.size ∈ os.map (·.size))
      have := hpos o ho
      refine ⟨by omega, by omega, o, hpre.subset ho, hi⟩
    · omega

/-- The limit holds as long as no Initial packets are sent and the 0-RTT key is not
known: in particular for a path after the handshake. -/
theorem limit_partial (ops : List Op) (i : Nat) (q : Path)
    (hinit : ∀ src dst outLen now pkts, .send src dst outLen now pkts ∈ ops → ∀ o ∈ pkts, o.initial = false) (hearly : .earlyKey ∉ ops) :
    let c0 := Conn.start true verified a limit factor recvMax noReuse scid dcid stok dtok
    (c0.run ops).paths.get i = some q → q.verified = false → total (put q.uid) c0 ops ≤ factor * total (got q.uid) c0 ops := by
  intro c0 hq hv
  have h0 : Inv c0 := start_inv ..
  have h := sent_partial (verified := verified) (noReuse := noReuse) (a := a) (limit := limit) (factor := factor) (recvMax := recvMax)
    (scid := scid) (dcid := dcid) (stok := stok) (dtok := dtok) ops i q hq hv
  have h1 : total (again q.uid) c0 ops = 0 := by
    refine total_zero (fun c => Inv c ∧ c.earlyKey = false) ⟨h0, rfl⟩ ?_ ?_
    · rintro c op ho ⟨hi, he⟩
      refine ⟨step_inv hi op, ?_⟩
      rw [(step_conf hi op).2.2 fun h => hearly (h ▸ ho)]
      exact he
    · rintro c op ho ⟨_, he⟩
      cases op <;> simp [again, he]
  have h2 : total (pad q.uid) c0 ops = 0 := by
    refine total_zero (fun _ => True) trivial (fun _ _ _ _ => trivial) ?_
    intro c op ho _
    cases op with
    | send src dst outLen now pkts =>
      simp only [pad]
      split
      · rename_i pid n k hr
        split
        · by_cases hk : 0 < k
          · obtain ⟨_, _, o, hop, hoi⟩ := pad_small c src dst outLen now pkts pid n k hr hk
            rw [hinit src dst outLen now pkts ho o hop] at hoi
            cases hoi
          · omega
        · rfl
      · rfl
    | _ => rfl
  have h : total (put q.uid) c0 ops ≤ factor * (total (got q.uid) c0 ops + total (again q.uid) c0 ops) + total (pad q.uid) c0 ops := h
  rw [h1, h2] at h
  omega

/-- A datagram with a Handshake packet. -/
def Completes (op : Op) : Prop := ∃ b len pkts n, op = .recv b len pkts ∧ .long true n ∈ pkts

/-- The address of a path becomes verified by a Handshake packet from the client, or by a
response to a challenge outstanding on the path. -/
theorem verified_by (ops : List Op) (op : Op) (i : Nat) (q : Path) :
    let c := (Conn.start true verified a limit factor recvMax noReuse scid dcid stok dtok).run ops
    (c.step op).paths.get i = some q → q.verified = true →
    (∃ p, c.paths.get i = some p ∧ p.uid = q.uid ∧ p.verified = true) ∨ Completes op ∨ ∃ ch, Outstanding c q.uid ch ∧ Brings op ch.data := by
  intro c hq hv
  have h : Inv c := run_inv (start_inv ..) ops
  have weaken : ∀ {D : Nat → Prop} {V : Prop} {c' : Conn}, (∀ d, D d → Brings op d) → (V → Completes op) → Moves (Orel D V) (Onew V) c c' →
      c'.paths.get i = some q →
      (∃ p, c.paths.get i = some p ∧ p.uid = q.uid ∧ p.verified = true) ∨ Completes op ∨ ∃ ch, Outstanding c q.uid ch ∧ Brings op ch.data := by
    intro D V c' hD hV hm hq
    rcases hm.back i q hq with ⟨p, hp, r⟩ | ⟨hu, hf⟩
    · rcases r.verified hv with h | h | ⟨ch, hc, hd⟩
      · exact Or.inl ⟨p, hp, r.id.1.symm, h⟩
      · exact Or.inr (Or.inl (hV h))
      · exact Or.inr (Or.inr ⟨ch, ⟨i, p, hp, r.id.1.symm, hc⟩, hD _ hd⟩)
    · exact Or.inr (Or.inl (hV (hf.verified hv)))
  have same : c.paths.get i = some q →
      (∃ p, c.paths.get i = some p ∧ p.uid = q.uid ∧ p.verified = true) ∨ Completes op ∨ ∃ ch, Outstanding c q.uid ch ∧ Brings op ch.data :=
    fun h => Or.inl ⟨q, h, rfl, hv⟩
  cases op with
  | recv b len pkts =>
    refine weaken (D := Brings (.recv b len pkts)) (V := Completes (.recv b len pkts)) (fun _ h => h) (fun h => h) (Orel.fam.recv h ?_ ?_) hq
    · intro pkt hp d hd
      cases pkt with
      | short cid fs nw => exact ⟨b, len, pkts, cid, fs, nw, rfl, hp, hd⟩
      | long | early => cases hd
    · intro _ ⟨n, hn⟩
      exact ⟨b, len, pkts, n, rfl, hn⟩
  | send src dst outLen now pkts =>
    have hf := Orel.fam (D := noResp) (V := False) |>.flush h
    simp only [Conn.step] at hq
    rcases send_spec c src dst outLen now pkts with ⟨h1, _⟩ | ⟨pid, p, os, _, hp, _, h1, _⟩
    · rw [h1] at hq
      exact weaken (fun _ h => h.elim) False.elim hf hq
    · rw [h1] at hq
      have hq : (c.flush.paths.upd pid (·.sentAll os now)).get i = some q := hq
      rw [PathMap.get_upd] at hq
      split at hq
      · rename_i hpi
        subst hpi
        rw [hp] at hq
        have hq : p.sentAll os now = q := Option.some.inj hq
        obtain ⟨_, s2⟩ := sentAll_send p os now
        have hid := SameId.sentAll p os now
        rw [hq] at s2 hid
        rcases hf.back pid p hp with ⟨p0, hp0, r⟩ | ⟨_, hn⟩
        · rcases r.verified (by rw [← s2]; exact hv) with h | h | ⟨_, _, h⟩
          · exact Or.inl ⟨p0, hp0, (hid.1.trans r.id.1).symm, h⟩
          · exact h.elim
          · exact h.elim
        · exact (hn.verified (by rw [← s2]; exact hv)).elim
      · exact weaken (fun _ h => h.elim) False.elim hf hq
  | timeout now due => exact weaken (D := noResp) (V := False) (fun _ h => h.elim) False.elim (Orel.quiets.onTimeout h now due) hq
  | probe b => exact weaken (D := noResp) (V := False) (fun _ h => h.elim) False.elim (Orel.quiets.probePath h b) hq
  | migrate b => exact weaken (D := noResp) (V := False) (fun _ h => h.elim) False.elim (Orel.quiets.migrate h b) hq
  | retireDcid seq => exact weaken (D := noResp) (V := False) (fun _ h => h.elim) False.elim (Orel.quiets.retireDcid h seq) hq
  | newScid | setLimit | establish | earlyKey | takeNew | takeRetire | lostNew | lostRetire | close => exact same hq

/-- A server that has not verified the address of its client. -/
abbrev s0 : Conn := Conn.start true false (1, 2) 3 3 3 false [1] [2] none none

/-- A client sends its Initial packet; the server sends four times an Initial packet of 50
bytes, padded to 1200. -/
def padded : List Op := .recv (1, 2) 1200 [.long false 1200] :: List.replicate 4 (.send none none 1200 1 [⟨true, false, 50, 0, none⟩])

/-- The limit is broken: 4800 bytes are sent to an address not verified, after 1200 were
received. -/
theorem limit_false : ¬ ∀ (ops : List Op) (i : Nat) (q : Path), (s0.run ops).paths.get i = some q → q.verified = false →
    total (put q.uid) s0 ops ≤ 3 * total (got q.uid) s0 ops := by
  intro h
  have := h padded 0 _ rfl rfl
  revert this
  decide +kernel

example : total (put 0) s0 padded = 4800 ∧ total (got 0) s0 padded = 1200 ∧ total (pad 0) s0 padded = 4600 ∧
    total (again 0) s0 padded = 0 := by decide +kernel

/-- The first datagram of the client has a 0-RTT packet, which the server keeps until it
has the key. -/
def early : List Op :=
  [.recv (1, 2) 1200 [.long false 300, .early [] true 900], .earlyKey] ++ List.replicate 6 (.send none none 1200 1 [⟨false, false, 1200, 0, none⟩])

/-- The limit is broken even if nothing is padded: 6300 bytes may be sent. -/
theorem early_false : ¬ ∀ (ops : List Op) (i : Nat) (q : Path), (s0.run ops).paths.get i = some q → q.verified = false →
    total (pad q.uid) s0 ops = 0 → total (put q.uid) s0 ops ≤ 3 * total (got q.uid) s0 ops := by
  intro h
  have := h early 0 _ rfl rfl
  revert this
  decide +kernel

example : total (put 0) s0 early = 6000 ∧ total (got 0) s0 early = 1200 ∧ total (again 0) s0 early = 900 ∧ total (pad 0) s0 early = 0 ∧
    ((s0.run early).paths.get 0).map (fun q => (q.verified, q.maxSend)) = some (false, 300) := by decide +kernel

/-- A server whose client moves: after the datagram of 600 bytes from the new address, the
server sends 1800 bytes there; more when it gets more; without limit when the path is
validated. -/
def moved (n : Nat) : List Op := moving.take 2 ++ List.replicate n (.send none none 700 5 [⟨false, true, 700, 0, some 77⟩])

abbrev s1 : Conn := Conn.start true true (1, 2) 2 3 3 false [1] [2] none none

example : (total (put 1) s1 (moved 2), total (got 1) s1 (moved 2)) = (1400, 600) ∧
    ((s1.run (moved 2)).paths.get 1).map (fun q => (q.verified, q.maxSend)) = some (false, 400) := by decide +kernel

example : total (put 1) s1 (moved 3) = 1400 ∧ total (put 1) s1 (moved 3 ++ [.send none none 400 5 [⟨false, true, 400, 0, some 77⟩]]) = 1800 := by
  decide +kernel

example : ((s1.run (moving.take 3)).paths.get 1).map (·.verified) = some false ∧
    ((s1.run (moving.take 4)).paths.get 1).map (·.verified) = some true := by decide +kernel

/-- A Handshake packet verifies. -/
example : ((s0.run [.recv (1, 2) 1200 [.long false 1200], .recv (1, 2) 100 [.long true 100]]).paths.get 0).map (·.verified) = some true := by
  decide +kernel

end Verif.Props.C42
