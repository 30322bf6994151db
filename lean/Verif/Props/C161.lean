import Verif.Small.PmtudPaths
import Verif.Small.Assembly
import Verif.Props.C43

/-!
# C161: Path MTU discovery on several paths
-/

namespace Verif.Props.C161
open Verif.Pmtud hiding Op
open Verif.PmtudPaths

/-- Sizes of the probes delivered on path `p`. -/
def delivered (c : Conn) : List Op → Nat → List Nat
  | [], _ => []
  | .fate q true :: l, p => (if q = p then (c.path q).out.head?.toList else []) ++ delivered (c.step (.fate q true)) l p
  | op :: l, p => delivered (c.step op) l p

/-- All paths are new: discovery has not begun, where it is enabled. -/
def Fresh (mx : Nat → Nat) (probes : Nat) (c : Conn) : Prop :=
  ∀ p, (c.path p).out = [] ∧ ((c.path p).pmtud = none ∨ (c.path p).pmtud = some (new (mx p) probes))

/-- Each 1-RTT packet is sent on the path that is active then. -/
def Own (c : Conn) : List Op → Prop
  | [] => True
  | .send pid :: l => pid = c.active ∧ Own (c.step (.send pid)) l
  | op :: l => Own (c.step op) l

/-! ### The MTU in use was delivered -/

theorem update_success (s : St) : s.updateProbeSize.success = s.success ∨ s.updateProbeSize.success = none := by
  unfold St.updateProbeSize
  split
  · split
    · exact .inr rfl
    · split
      · exact .inl rfl
      · exact .inl rfl
  · exact .inl rfl
  · exact .inl rfl
  · exact .inl rfl

theorem report_success (s : St) (n : Nat) (d : Bool) (g : Nat) (h : (s.report n d).success = some g) :
    s.success = some g ∨ (d = true ∧ (g ≤ n ∨ ∃ k, s.success = some k ∧ g ≤ k)) := by
  cases d with
  | true =>
    right
    refine ⟨rfl, ?_⟩
    have e : (s.report n true).success = ({ s with failures := 0, success := some (s.newSuccess n) } : St).updateProbeSize.success := rfl
    rw [e] at h
    rcases update_success { s with failures := 0, success := some (s.newSuccess n) } with k | k
    · rw [k] at h
      injection h with h
      unfold St.newSuccess at h
      split at h
      · left; omega
      · rename_i v hv
        by_cases hc : min n s.maxMtu ≤ v
        · right; exact ⟨v, hv, by omega⟩
        · left; omega
    · rw [k] at h; cases h
  | false =>
    left
    have e : (s.report n false).success = s.success ∨ (s.report n false).success = none := by
      show (s.failedProbe n).success = _ ∨ (s.failedProbe n).success = _
      unfold St.failedProbe
      dsimp only
      split
      · exact .inl rfl
      · rcases update_success { s with failures := 0, failed := some (St.newFailed { s with failures := s.failures + 1 } (max n minMtu)) } with k | k
        · exact .inl k
        · exact .inr k
    rcases e with e | e
    · rw [← e]; exact h
    · rw [e] at h; cases h

theorem revalidate_success (s : St) (g : Nat) (h : s.revalidate.success = some g) : s.success = some g := by
  unfold St.revalidate at h
  split at h
  · exact h
  · cases h

theorem sendProbe_success {s t : St} {n : Nat} (h : s.sendProbe = some (n, t)) : t.success = s.success := by
  unfold St.sendProbe at h
  split at h
  · injection h with h; injection h with _ h; rw [← h]
  · cases h

/-- The largest size known to work on a path is not above one of `D`. -/
def Known (D : Nat → List Nat) (c : Conn) : Prop :=
  ∀ p s g, (c.path p).pmtud = some s → s.success = some g → ∃ n ∈ D p, g ≤ n

theorem known_set {D : Nat → List Nat} {c : Conn} (h : Known D c) (i : Nat) (q : Path)
    (hq : ∀ s g, q.pmtud = some s → s.success = some g → ∃ n ∈ D i, g ≤ n) : Known D (c.set i q) := by
  intro p s g hs hg
  unfold Conn.set at hs
  dsimp only at hs
  split at hs
  · rename_i e; subst e; exact hq s g hs hg
  · exact h p s g hs hg

theorem known_run (ops : List Op) (c : Conn) (D : Nat → List Nat) (h : Known D c) :
    Known (fun p => D p ++ delivered c ops p) (c.run ops) := by
  induction ops generalizing c D with
  | nil =>
    show Known _ c
    simpa [delivered] using h
  | cons op ops ih =>
    show Known _ ((c.step op).run ops)
    cases op with
    | send pid =>
      refine ih (c.step (.send pid)) D ?_
      show Known D (c.send pid)
      unfold Conn.send
      split
      · exact h
      · rename_i s hs
        split
        · exact h
        · rename_i n t ht
          have h1 : Known D (c.set c.active { c.path c.active with pmtud := some t }) := by
            refine known_set h _ _ ?_
            intro s' g hs' hg
            injection hs' with hs'
            subst hs'
            rw [sendProbe_success ht] at hg
            exact h _ s g hs hg
          refine known_set h1 _ _ ?_
          intro s' g hs' hg
          exact h1 pid s' g hs' hg
    | activate pid => exact ih (c.step (.activate pid)) D h
    | revalidate =>
      refine ih (c.step .revalidate) D ?_
      refine known_set h _ _ ?_
      intro s' g hs' hg
      dsimp only at hs'
      cases hp : (c.path c.active).pmtud with
      | none => rw [hp] at hs'; cases hs'
      | some s =>
        rw [hp] at hs'
        injection hs' with hs'
        subst hs'
        exact h _ s g hp (revalidate_success s g hg)
    | fate pid d =>
      have key : Known (fun p => D p ++ (if d = true ∧ pid = p then (c.path pid).out.head?.toList else [])) (c.fate pid d) := by
        have h' : Known (fun p => D p ++ (if d = true ∧ pid = p then (c.path pid).out.head?.toList else [])) c := by
          intro p s g hs hg
          obtain ⟨n, hn, hle⟩ := h p s g hs hg
          exact ⟨n, List.mem_append_left _ hn, hle⟩
        unfold Conn.fate
        split
        · exact h'
        · rename_i n l hl
          refine known_set h' _ _ ?_
          intro s' g hs' hg
          dsimp only at hs'
          cases hp : (c.path pid).pmtud with
          | none => rw [hp] at hs'; cases hs'
          | some s =>
            rw [hp] at hs'
            injection hs' with hs'
            subst hs'
            rcases report_success s n d g hg with k | ⟨hd, k | ⟨v, hv, hle⟩⟩
            · exact h' pid s g hp k
            · refine ⟨n, ?_, k⟩
              simp [hd, hl]
            · obtain ⟨m, hm, hle'⟩ := h' pid s v hp hv
              exact ⟨m, hm, Nat.le_trans hle hle'⟩
      have := ih (c.step (.fate pid d)) _ key
      intro p s g hs hg
      obtain ⟨n, hn, hle⟩ := this p s g hs hg
      refine ⟨n, ?_, hle⟩
      cases d with
      | true => simpa [delivered, List.append_assoc] using hn
      | false => simpa [delivered] using hn

/-- On whatever paths packets are sent: the MTU used on a path is 1200, or a probe of at least this size was
delivered on this path. -/
theorem evidence (mx : Nat → Nat) (probes : Nat) (c : Conn) (h : Fresh mx probes c) (ops : List Op) (p : Nat) (s : St)
    (hs : ((c.run ops).path p).pmtud = some s) : s.currentMtu = 1200 ∨ ∃ n ∈ delivered c ops p, s.currentMtu ≤ n := by
  have h0 : Known (fun _ => []) c := by
    intro p s g hs hg
    rcases (h p).2 with k | k
    · rw [k] at hs; cases hs
    · rw [k] at hs; injection hs with hs; subst hs; cases hg
  have := known_run ops c _ h0 p s
  unfold St.currentMtu
  cases hg : s.success with
  | none => left; rfl
  | some g =>
    right
    obtain ⟨n, hn, hle⟩ := this g hs hg
    exact ⟨n, by simpa using hn, hle⟩

/-! ### If probes are sent on their own path -/

/-- A path is as if it were alone. -/
def Alone (mx probes : Nat) (q : Path) : Prop :=
  (q.pmtud = none ∧ q.out = []) ∨ ∃ evs, q.pmtud = some (C43.Sim.run { s := new mx probes } evs).s ∧
    q.out = (C43.Sim.run { s := new mx probes } evs).out.toList

theorem sim_snoc (x : C43.Sim) (l : List C43.Ev) (e : C43.Ev) : x.run (l ++ [e]) = (x.run l).step e := by
  simp [C43.Sim.run]

theorem alone_set {mx : Nat → Nat} {probes : Nat} {c : Conn} (h : ∀ p, Alone (mx p) probes (c.path p)) (i : Nat) (q : Path)
    (hq : Alone (mx i) probes q) : ∀ p, Alone (mx p) probes ((c.set i q).path p) := by
  intro p
  unfold Conn.set
  dsimp only
  split
  · rename_i e; subst e; exact hq
  · exact h p

theorem alone_step {mx : Nat → Nat} {probes : Nat} (hmx : ∀ p, minMtu ≤ mx p) {c : Conn} (h : ∀ p, Alone (mx p) probes (c.path p)) (op : Op)
    (ho : ∀ pid, op = .send pid → pid = c.active) : ∀ p, Alone (mx p) probes ((c.step op).path p) := by
  cases op with
  | activate pid => exact h
  | send pid =>
    have ho := ho pid rfl
    subst ho
    show ∀ p, Alone (mx p) probes ((c.send c.active).path p)
    unfold Conn.send
    split
    · exact h
    · rename_i s hs
      split
      · exact h
      · rename_i n t ht
        rcases h c.active with ⟨k, _⟩ | ⟨evs, k1, k2⟩
        · rw [k] at hs; cases hs
        · have hinv := C43.inv_run evs _ (C43.inv_new (hmx c.active) probes)
          rw [k1] at hs
          injection hs with hs
          have hfl := hinv.flight
          have hns : s.inFlight = false := by
            unfold St.sendProbe St.shouldProbe at ht
            cases hi : s.inFlight with
            | false => rfl
            | true => rw [hi] at ht; simp at ht
          have hout : (C43.Sim.run { s := new (mx c.active) probes } evs).out = none := by
            rw [hs, hns] at hfl
            cases hh : (C43.Sim.run { s := new (mx c.active) probes } evs).out with
            | none => rfl
            | some v => rw [hh] at hfl; cases hfl
          have hstep : (C43.Sim.run { s := new (mx c.active) probes } evs).step .send = { (C43.Sim.run { s := new (mx c.active) probes } evs) with s := t, out := some n } := by
            unfold C43.Sim.step
            dsimp only
            rw [hs, ht]
          intro p
          by_cases hp : p = c.active
          · subst hp
            right
            refine ⟨evs ++ [.send], ?_, ?_⟩
            · rw [sim_snoc, hstep]; simp [Conn.set]
            · rw [sim_snoc, hstep]; simp [Conn.set, k2, hout]
          · have := h p
            simpa [Conn.set, hp] using this
  | fate pid d =>
    show ∀ p, Alone (mx p) probes ((c.fate pid d).path p)
    unfold Conn.fate
    split
    · exact h
    · rename_i n l hl
      refine alone_set h pid _ ?_
      rcases h pid with ⟨k1, k2⟩ | ⟨evs, k1, k2⟩
      · rw [k2] at hl; cases hl
      · right
        refine ⟨evs ++ [.fate d], ?_⟩
        rw [sim_snoc]
        rw [k2] at hl
        cases hh : (C43.Sim.run { s := new (mx pid) probes } evs).out with
        | none => rw [hh] at hl; cases hl
        | some v =>
          rw [hh] at hl
          simp only [Option.toList_some, List.cons.injEq] at hl
          obtain ⟨rfl, rfl⟩ := hl
          unfold C43.Sim.step
          dsimp only
          rw [hh, k1]
          exact ⟨rfl, rfl⟩
  | revalidate =>
    refine alone_set h _ _ ?_
    rcases h c.active with ⟨k1, k2⟩ | ⟨evs, k1, k2⟩
    · left; exact ⟨by rw [k1]; rfl, k2⟩
    · right
      refine ⟨evs ++ [.revalidate], ?_⟩
      rw [sim_snoc]
      unfold C43.Sim.step
      dsimp only
      rw [k1]
      exact ⟨rfl, k2⟩

theorem alone_run {mx : Nat → Nat} {probes : Nat} (hmx : ∀ p, minMtu ≤ mx p) (ops : List Op) (c : Conn) (h : ∀ p, Alone (mx p) probes (c.path p))
    (ho : Own c ops) : ∀ p, Alone (mx p) probes ((c.run ops).path p) := by
  induction ops generalizing c with
  | nil => exact h
  | cons op ops ih =>
    have h1 : (∀ pid, op = .send pid → pid = c.active) ∧ Own (c.step op) ops := by
      cases op with
      | send pid => obtain ⟨a, b⟩ := ho; exact ⟨fun q hq => (by injection hq with hq; rw [← hq]; exact a), b⟩
      | fate pid d => exact ⟨fun q hq => (by cases hq), ho⟩
      | activate pid => exact ⟨fun q hq => (by cases hq), ho⟩
      | revalidate => exact ⟨fun q hq => (by cases hq), ho⟩
    exact ih (c.step op) (alone_step hmx h op h1.1) h1.2

/-- If 1-RTT packets are sent on the active path only, discovery on each path goes as if the path were alone (C43). -/
theorem alone_partial {mx : Nat → Nat} {probes : Nat} (hmx : ∀ p, minMtu ≤ mx p) (c : Conn) (h : Fresh mx probes c) (ops : List Op) (ho : Own c ops) (p : Nat) (s : St)
    (hs : ((c.run ops).path p).pmtud = some s) :
    ∃ evs, (C43.Sim.run { s := new (mx p) probes } evs).s = s ∧ (C43.Sim.run { s := new (mx p) probes } evs).out.toList = ((c.run ops).path p).out := by
  have h0 : ∀ p, Alone (mx p) probes (c.path p) := by
    intro p
    obtain ⟨a, b | b⟩ := h p
    · exact .inl ⟨b, a⟩
    · exact .inr ⟨[], by rw [b]; rfl, by rw [a]; rfl⟩
  rcases alone_run hmx ops c h0 ho p with ⟨k, _⟩ | ⟨evs, k1, k2⟩
  · rw [k] at hs; cases hs
  · rw [k1] at hs; injection hs with hs; exact ⟨evs, hs, k2.symm⟩

/-- Then discovery waits only for a probe that is on its way on the path, the only one there. -/
theorem waits_partial {mx : Nat → Nat} {probes : Nat} (hmx : ∀ p, minMtu ≤ mx p) (c : Conn) (h : Fresh mx probes c) (ops : List Op) (ho : Own c ops) (p : Nat) (s : St)
    (hs : ((c.run ops).path p).pmtud = some s) :
    ((c.run ops).path p).out = if s.inFlight then [s.probeSize] else [] := by
  obtain ⟨evs, e1, e2⟩ := alone_partial hmx c h ops ho p s hs
  have hinv := C43.inv_run evs _ (C43.inv_new (hmx p) probes)
  have hf := hinv.flight
  have hc := hinv.current
  rw [← e2]
  rw [e1] at hf hc
  cases hh : (C43.Sim.run { s := new (mx p) probes } evs).out with
  | none => rw [hh] at hf; rw [← hf]; rfl
  | some v => rw [hh] at hf; rw [← hf, hc v hh]; rfl

/-! ### If they are not -/

/-- Two paths with discovery, the first of them active. -/
def two : Conn := { path := fun p => if p < 2 then { pmtud := some (new 1500 3) } else {} }

/-- No other path becomes active. -/
def NoActivate (ops : List Op) : Prop := ∀ pid, Op.activate pid ∉ ops

/-- Discovery on path 0 waits for a probe that is not on its way on path 0. -/
structure Stuck (c : Conn) : Prop where
  active : c.active = 0
  out : (c.path 0).out = []
  st : ∃ s, (c.path 0).pmtud = some s ∧ s.inFlight = true ∧ s.pmtu = none ∧ s.success = none

theorem stuck_step {c : Conn} (h : Stuck c) (op : Op) (ha : ∀ pid, op ≠ .activate pid) : Stuck (c.step op) := by
  obtain ⟨s, h1, h2, h3, h4⟩ := h.st
  cases op with
  | activate pid => exact absurd rfl (ha pid)
  | send pid =>
    have : c.send pid = c := by
      unfold Conn.send
      rw [h.active, h1]
      dsimp only
      unfold St.sendProbe St.shouldProbe
      rw [h2]
      rfl
    show Stuck (c.send pid)
    rw [this]; exact h
  | fate pid d =>
    show Stuck (c.fate pid d)
    unfold Conn.fate
    split
    · exact h
    · rename_i n l hl
      have hne : 0 ≠ pid := by
        intro e; subst e; rw [h.out] at hl; cases hl
      refine ⟨h.active, ?_, s, ?_, h2, h3, h4⟩
      · simp only [Conn.set, if_neg hne]; exact h.out
      · simp only [Conn.set, if_neg hne]; exact h1
  | revalidate =>
    refine ⟨h.active, ?_, s, ?_, h2, h3, h4⟩
    · simp only [Conn.step, Conn.set, h.active, if_true]; exact h.out
    · simp only [Conn.step, Conn.set, h.active, if_true, h1, Option.map_some]
      unfold St.revalidate
      rw [h3]

theorem stuck_run (ops : List Op) (c : Conn) (h : Stuck c) (ha : NoActivate ops) : Stuck (c.run ops) := by
  induction ops generalizing c with
  | nil => exact h
  | cons op ops ih =>
    refine ih (c.step op) (stuck_step h op ?_) ?_
    · intro pid e; exact ha pid (by rw [e]; exact List.mem_cons_self)
    · intro pid hm; exact ha pid (List.mem_cons_of_mem _ hm)

/-- In general it is otherwise: the first packet sent on another path (to validate it, say) takes the probe of the
active path along, and the active path is never told what became of it. While it stays active its MTU remains 1200, and
no probe is sent on it, although no probe was ever lost. -/
theorem stuck (ops : List Op) (ha : NoActivate ops) :
    ∃ s, ((two.run (.send 1 :: ops)).path 0).pmtud = some s ∧ s.currentMtu = 1200 ∧ s.pmtu = none ∧ ((two.run (.send 1 :: ops)).path 0).out = [] := by
  have h0 : Stuck (two.step (.send 1)) := by
    refine ⟨rfl, by decide +kernel, { (new 1500 3) with inFlight := true }, by decide +kernel, rfl, rfl, rfl⟩
  have h := stuck_run ops _ h0 ha
  obtain ⟨s, h1, h2, h3, h4⟩ := h.st
  refine ⟨s, h1, ?_, h3, h.out⟩
  unfold St.currentMtu; rw [h4]; rfl

/-- The probe takes the place of the PATH_CHALLENGE for which the packet was to be sent. -/
theorem displaces : Asm.In.single { ty := .short, mtu := some 1200, hdr := 9, cwnd := 12000, probe := some (1500, 12000), validated := false, pieces := [.whole 9] } 1500 false =
    .ok { ty := .short, off := 10, frames := [1473, 1], tag := 16, eliciting := true, inFlight := true, probe := true } := by decide +kernel

/-- On its own path, discovery with two paths finds 1500 bytes on the active one, and later another size on the other. -/
example : ((two.run [.send 0, .fate 0 true]).path 0).pmtud.map (·.pmtu) = some (some 1500) ∧
    ((two.run [.send 0, .fate 0 true, .activate 1, .send 1, .fate 1 false, .send 1, .fate 1 false, .send 1, .fate 1 false]).path 1).pmtud.map (·.probeSize) = some 1350 := by
  decide +kernel

end Verif.Props.C161
