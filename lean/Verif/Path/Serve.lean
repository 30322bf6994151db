import Verif.Path.Step

/-!
The paths that are asked for packets: `paths_iter` of `/repo/quiche/src/lib.rs`, beside the
choice of `get_send_path_id` (`Conn.sendPath`).
-/

namespace Verif.Path
open Verif

variable {c : Conn} {m : PathMap}

/-- Whether `paths_iter` takes a path (lib.rs:7518-7520). -/
def Path.listed (p : Path) (src : Nat) : Bool := p.dcid.isSome && (p.usable || p.probingRequired) && decide (p.laddr = src)

/-- `paths_iter` (lib.rs:7511-7527): the peer addresses, in the order of the paths. -/
def Conn.pathsIter (c : Conn) (src : Nat) : List Nat :=
  c.paths.slots.filterMap fun s => s.bind fun p => if p.listed src then some p.paddr else none

/-- Whether a path is to be probed and can be: the tests of `get_send_path_id` without
addresses (lib.rs:9107-9108). -/
def Path.wantsProbe (p : Path) : Bool := p.dcid.isSome && p.probingRequired

theorem mem_slots {m : PathMap} {p : Path} : some p ∈ m.slots ↔ ∃ i, m.get i = some p := by
  unfold PathMap.get
  rw [List.mem_iff_getElem?]
  constructor
  · rintro ⟨i, hi⟩
    exact ⟨i, by rw [hi]; rfl⟩
  · rintro ⟨i, hi⟩
    refine ⟨i, ?_⟩
    cases hs : m.slots[i]? with
    | none => rw [hs] at hi; cases hi
    | some s => rw [hs] at hi; rw [show s = some p from hi]

theorem mem_pathsIter (c : Conn) (f t : Nat) : t ∈ c.pathsIter f ↔ ∃ i p, c.paths.get i = some p ∧ p.paddr = t ∧ p.listed f = true := by
  unfold Conn.pathsIter
  rw [List.mem_filterMap]
  constructor
  · rintro ⟨s, hs, he⟩
    cases s with
    | none => cases he
    | some p =>
      obtain ⟨i, hi⟩ := mem_slots.mp hs
      have he : (if p.listed f then some p.paddr else none) = some t := he
      split at he
      · rename_i hl
        exact ⟨i, p, hi, Option.some.inj he, hl⟩
      · cases he
  · rintro ⟨i, p, hi, ht, hl⟩
    refine ⟨some p, mem_slots.mpr ⟨i, hi⟩, ?_⟩
    show (if p.listed f then some p.paddr else none) = some t
    rw [if_pos hl, ht]

theorem nodup_pathsIter (h : Table c.paths) (f : Nat) : (c.pathsIter f).Nodup := by
  unfold Conn.pathsIter List.Nodup
  rw [List.pairwise_filterMap, List.pairwise_iff_getElem]
  intro i j hi hj hij b hb b' hb' he
  cases hsi : c.paths.slots[i] with
  | none => rw [hsi] at hb; cases hb
  | some p =>
    cases hsj : c.paths.slots[j] with
    | none => rw [hsj] at hb'; cases hb'
    | some q =>
      rw [hsi] at hb
      rw [hsj] at hb'
      have gi : c.paths.get i = some p := by unfold PathMap.get; rw [List.getElem?_eq_getElem hi, hsi]; rfl
      have gj : c.paths.get j = some q := by unfold PathMap.get; rw [List.getElem?_eq_getElem hj, hsj]; rfl
      have hb : (if p.listed f then some p.paddr else none) = some b := hb
      have hb' : (if q.listed f then some q.paddr else none) = some b' := hb'
      split at hb
      · rename_i l1
        split at hb'
        · rename_i l2
          have e1 := Option.some.inj hb
          have e2 := Option.some.inj hb'
          unfold Path.listed at l1 l2
          rw [Bool.and_eq_true] at l1 l2
          have a1 := of_decide_eq_true l1.2
          have a2 := of_decide_eq_true l2.2
          have h1 := (h.addrs (f, b) i).mpr ⟨p, gi, by rw [a1, e1]⟩
          have h2 := (h.addrs (f, b) j).mpr ⟨q, gj, by rw [a2, e2, he]⟩
          rw [h1] at h2
          have := Option.some.inj h2
          omega
        · cases hb'
      · cases hb

theorem find_intro {t : Path → Bool} {i : Nat} {p : Path} (hp : m.get i = some p) (ht : t p = true)
    (hn : ∀ j q, j < i → m.get j = some q → t q = false) : m.find t = some i := by
  cases hf : m.find t with
  | none => rw [PathMap.find_none hf hp] at ht; cases ht
  | some k =>
    obtain ⟨q, hq, hqt⟩ := PathMap.find_some hf
    have hk := PathMap.find_first hf hp ht
    by_cases hlt : k < i
    · rw [hn k q hlt hq] at hqt; cases hqt
    · rw [show k = i by omega]

/-- The path `get_send_path_id` chooses. -/
theorem sendPath_spec {src dst : Option Nat} {pid : Nat} (h : c.sendPath src dst = some pid) :
    ∃ p, c.paths.get pid = some p ∧ Conn.matches_ p src dst = true ∧ p.dcid.isSome = true ∧
      ((c.established = true ∧ p.probingRequired = true) ∨ c.paths.activeId = some pid ∧ p.isActive = true ∧
        (c.established = true → ∀ j q, c.paths.get j = some q → Conn.matches_ q src dst = true → q.dcid.isSome = true →
          q.probingRequired = false)) := by
  unfold Conn.sendPath at h
  split at h
  · rename_i k hk
    cases h
    split at hk
    · rename_i he
      obtain ⟨p, hp, hpt⟩ := PathMap.find_some hk
      rw [Bool.and_eq_true, Bool.and_eq_true] at hpt
      exact ⟨p, hp, hpt.1.1, hpt.1.2, Or.inl ⟨he, hpt.2⟩⟩
    · cases hk
  · rename_i hk
    split at h
    · cases h
    · rename_i k ha
      split at h
      · cases h
      · rename_i p hp
        split at h
        · rename_i hm
          cases h
          obtain ⟨q, hq, hqt⟩ := PathMap.find_some ha
          rw [hp] at hq
          cases hq
          have hd : p.dcid.isSome = true := by
            unfold Path.isActive at hqt
            rw [Bool.and_eq_true] at hqt
            exact hqt.2
          refine ⟨p, hp, hm, hd, Or.inr ⟨ha, hqt, ?_⟩⟩
          intro he j q hq h1 h2
          rw [if_pos he] at hk
          have := PathMap.find_none hk hq
          cases hpr : q.probingRequired with
          | false => rfl
          | true => rw [h1, h2, hpr] at this; cases this
        · cases h

/-! ## A path that is to be probed but may not be sent to -/

/-- Nothing is being validated; the first path to be probed belongs to a peer address that is
not verified and has no credit. -/
structure Blocked (c : Conn) (i : Nat) : Prop where
  server : c.server = true
  est : c.established = true
  early : c.earlyKey = false
  first : c.paths.find Path.wantsProbe = some i
  credit : ∀ p, c.paths.get i = some p → p.verified = false ∧ p.maxSend = 0
  idle : ∀ j q, c.paths.get j = some q → q.inFlight = []
  active : c.paths.activeId ≠ none

theorem find_congr {t u : Path → Bool} (h : ∀ p, t p = u p) : m.find t = m.find u := by rw [show t = u from funext h]

theorem Blocked.pick {i : Nat} (h : Blocked c i) : c.pickPath none none = some i := by
  show c.sendPath none none = some i
  unfold Conn.sendPath
  rw [h.est]
  simp only [if_true]
  rw [find_congr (u := Path.wantsProbe) (fun p => by simp [Conn.matches_, Path.wantsProbe]), h.first]

theorem Blocked.send {i : Nat} (h : Blocked c i) (outLen now : Nat) (pkts : List Conn.Out) : c.send none none outLen now pkts = (none, c) := by
  have hf : c.flush = c := by unfold Conn.flush; rw [h.early]; rfl
  obtain ⟨p, hp, _⟩ := PathMap.find_some h.first
  obtain ⟨c1, c2⟩ := h.credit p hp
  have hb : c.budget p outLen = 0 := by
    unfold Conn.budget
    rw [if_pos ⟨c1, h.server⟩, c2]
    omega
  unfold Conn.send
  rw [hf]
  dsimp only
  rw [h.pick]
  dsimp only
  rw [hp]
  dsimp only
  rw [hb]
  cases pkts with
  | nil => rfl
  | cons o l => rfl

theorem upd_same (m : PathMap) (pid : Nat) (f : Path → Path) (h : ∀ p, m.get pid = some p → f p = p) : m.upd pid f = m := by
  have : m.slots.modify pid (·.map f) = m.slots := by
    apply List.ext_getElem?
    intro i
    rw [List.getElem?_modify]
    by_cases hi : pid = i
    · simp only [hi, if_true]
      cases hs : m.slots[i]? with
      | none => rfl
      | some s =>
        cases s with
        | none => rfl
        | some p =>
          have hp : m.get pid = some p := by unfold PathMap.get; rw [hi, hs]; rfl
          show some (some (f p)) = some (some p)
          rw [h p hp]
    · simp only [hi, if_false]
      cases m.slots[i]? <;> rfl
  unfold PathMap.upd
  rw [this]

theorem onTimeout_idle (p : Path) (now rtt : Nat) (s : Bool) (h : p.inFlight = []) : p.onTimeout now rtt s = p := by
  obtain ⟨_, _, _, _, _, _, _, fl, _, _, _, _, _, _, _, _, _, _, _⟩ := p
  have h : fl = [] := h
  subst h
  rfl

theorem expire_idle (c : Conn) (now : Nat) (due : List (Nat × Nat)) (h : ∀ j q, c.paths.get j = some q → q.inFlight = []) :
    c.expire now due = c := by
  induction due with
  | nil => rfl
  | cons x l ih =>
    obtain ⟨pid, rtt⟩ := x
    simp only [Conn.expire]
    rw [upd_same c.paths pid _ fun p hp => onTimeout_idle p now rtt c.server (h pid p hp)]
    exact ih

theorem notifyFailed_get {j : Nat} {q : Path} (h : m.notifyFailed.get j = some q) :
    ∃ p, m.get j = some p ∧ (q = p ∨ q = { p with notified := true }) := by
  rw [Quiet.get_notifyFailed] at h
  split at h
  · cases hp : m.get j with
    | none => rw [hp] at h; cases h
    | some p => rw [hp] at h; exact ⟨p, rfl, Or.inr (Option.some.inj h).symm⟩
  · exact ⟨q, h, Or.inl rfl⟩

theorem get_notifyFailed' {j : Nat} {p : Path} (h : m.get j = some p) :
    ∃ q, m.notifyFailed.get j = some q ∧ (q = p ∨ q = { p with notified := true }) := by
  rw [Quiet.get_notifyFailed, h]
  split
  · exact ⟨_, rfl, Or.inr rfl⟩
  · exact ⟨_, rfl, Or.inl rfl⟩

theorem find_notifyFailed {t : Path → Bool} (ht : ∀ p : Path, t { p with notified := true } = t p) {i : Nat} (h : m.find t = some i) :
    m.notifyFailed.find t = some i := by
  obtain ⟨p, hp, hpt⟩ := PathMap.find_some h
  obtain ⟨q, hq, e⟩ := get_notifyFailed' hp
  refine find_intro hq ?_ ?_
  · rcases e with e | e <;> rw [e]
    · exact hpt
    · rw [ht]; exact hpt
  · intro j r hj hr
    obtain ⟨p', hp', e'⟩ := notifyFailed_get hr
    have hn : t p' = false := by
      cases hx : t p' with
      | false => rfl
      | true => have := PathMap.find_first h hp' hx; omega
    rcases e' with e' | e' <;> rw [e']
    · exact hn
    · rw [ht]; exact hn

theorem Blocked.timeout {i : Nat} (h : Blocked c i) (now : Nat) (due : List (Nat × Nat)) : Blocked (c.onTimeout now due) i := by
  unfold Conn.onTimeout
  dsimp only
  rw [expire_idle c now due h.idle]
  have ha : c.paths.notifyFailed.activeId ≠ none := by
    cases hx : c.paths.activeId with
    | none => exact absurd hx h.active
    | some k =>
      have : c.paths.notifyFailed.activeId = some k := find_notifyFailed (fun _ => rfl) hx
      rw [this]
      exact fun h => nomatch h
  have hfb : Conn.fallback { c with paths := c.paths.notifyFailed } = { c with paths := c.paths.notifyFailed } := by
    unfold Conn.fallback
    dsimp only
    split
    · rfl
    · rename_i hx; exact absurd hx ha
  rw [hfb]
  refine ⟨h.server, h.est, h.early, find_notifyFailed (fun _ => rfl) h.first, ?_, ?_, ha⟩
  · intro q hq
    obtain ⟨p, hp, e⟩ := notifyFailed_get hq
    have := h.credit p hp
    rcases e with e | e <;> rw [e] <;> exact this
  · intro j q hq
    obtain ⟨p, hp, e⟩ := notifyFailed_get hq
    have := h.idle j p hp
    rcases e with e | e <;> rw [e] <;> exact this

end Verif.Path
