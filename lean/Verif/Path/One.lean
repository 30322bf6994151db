import Verif.Path.Own

/-!
One path is active, as long as no connection ID is retired and no failed path is used
again.
-/

namespace Verif.Path
open Verif
open Verif.Cid (Ids Err Entry Deque keys)

variable {c c' c'' : Conn} {m m' : PathMap}

/-- A path that is not failed. -/
def Fit (m : PathMap) (pid : Nat) : Prop := ∃ p, m.get pid = some p ∧ p.state ≠ .failed

/-- One path is active and no other has the flag. -/
def Single (m : PathMap) : Prop := ∃ i p, m.get i = some p ∧ p.isActive = true ∧ ∀ j q, m.get j = some q → q.active = true → j = i

/-- No path has the flag. -/
def NoFlag (m : PathMap) : Prop := ∀ j q, m.get j = some q → q.active = false

theorem isActive_iff {p : Path} : p.isActive = true ↔ p.active = true ∧ p.state ≠ .failed ∧ p.dcid.isSome = true := by
  unfold Path.isActive
  rw [Bool.and_eq_true, Bool.and_eq_true, decide_eq_true_eq]
  exact and_assoc

theorem Single.soft (h : Single m) (hr : Rel Soft m m') : Single m' := by
  obtain ⟨i, p, hp, ha, hu⟩ := h
  obtain ⟨q, hq, h1, h2, h3⟩ := hr.fwd i p hp
  obtain ⟨a1, a2, a3⟩ := isActive_iff.mp ha
  refine ⟨i, q, hq, isActive_iff.mpr ⟨by rw [h2]; exact a1, h3 a2, by rw [h1]; exact a3⟩, ?_⟩
  intro j r hr' hra
  obtain ⟨p', hp', g1, g2, g3⟩ := hr.bwd j r hr'
  exact hu j p' hp' (by rw [← g2]; exact hra)

theorem Fit.soft {pid : Nat} (h : Fit m pid) (hr : Rel Soft m m') : Fit m' pid := by
  obtain ⟨p, hp, hs⟩ := h
  obtain ⟨q, hq, _, _, h3⟩ := hr.fwd pid p hp
  exact ⟨q, hq, h3 hs⟩

/-- A path without connection ID gets one. -/
theorem Single.give (h : Single m) {pid : Nat} {p : Path} (hp : m.get pid = some p) (hd : p.dcid = none) (n : Option Nat) :
    Single (m.upd pid fun p => { p with dcid := n }) := by
  obtain ⟨i, p', hp', ha, hu⟩ := h
  obtain ⟨a1, a2, a3⟩ := isActive_iff.mp ha
  have hne : ¬pid = i := by
    intro he
    rw [he, hp'] at hp
    cases hp
    rw [hd] at a3
    cases a3
  refine ⟨i, p', by rw [PathMap.get_upd, if_neg hne]; exact hp', ha, ?_⟩
  intro j r hr hra
  rw [PathMap.get_upd] at hr
  split at hr
  · cases hg : m.get j with
    | none => rw [hg] at hr; cases hr
    | some x => rw [hg] at hr; cases hr; exact hu j x hg hra
  · exact hu j r hr hra

theorem Fit.upd {pid k : Nat} (h : Fit m pid) {f : Path → Path} (hf : ∀ p, (f p).state = p.state) : Fit (m.upd k f) pid := by
  obtain ⟨p, hp, hs⟩ := h
  unfold Fit
  rw [PathMap.get_upd]
  split
  · exact ⟨f p, by rw [hp]; rfl, by rw [hf]; exact hs⟩
  · exact ⟨p, hp, hs⟩

theorem activeId_of_single (h : Single m) : ∃ i p, m.activeId = some i ∧ m.get i = some p ∧ p.isActive = true ∧
    ∀ j q, m.get j = some q → q.active = true → j = i := by
  obtain ⟨i, p, hp, ha, hu⟩ := h
  refine ⟨i, p, ?_, hp, ha, hu⟩
  cases hf : m.activeId with
  | none =>
    have := PathMap.find_none hf hp
    rw [ha] at this
    cases this
  | some k =>
    obtain ⟨q, hq, hqa⟩ := PathMap.find_some hf
    rw [hu k q hq (isActive_iff.mp hqa).1]

theorem startMigrating_frame (p : Path) : p.startMigrating.active = true ∧ p.startMigrating.state = p.state ∧ p.startMigrating.dcid = p.dcid := by
  unfold Path.startMigrating Path.request
  dsimp only
  split <;> exact ⟨rfl, rfl, rfl⟩

/-- `set_active_path` sets the flag of a path and takes it from the active one. -/
theorem setActive_spec (m : PathMap) {pid : Nat} {p : Path} (hp : m.get pid = some p) :
    (m.setActive pid).1 = .ok () ∧ (∃ q, (m.setActive pid).2.get pid = some q ∧ q.active = true ∧ q.state = p.state ∧ q.dcid = p.dcid) ∧
    ∀ j, j ≠ pid → ∀ q, (m.setActive pid).2.get j = some q → ∃ p', m.get j = some p' ∧ q.dcid = p'.dcid ∧ q.state = p'.state ∧
      q.active = (p'.active && !decide (m.activeId = some j)) := by
  have hde : ∀ j, (m.deactivate).get j = if m.activeId = some j then (m.get j).map (fun p => { p with active := false }) else m.get j := by
    intro j
    unfold PathMap.deactivate
    cases ha : m.activeId with
    | none => simp
    | some old =>
      dsimp only
      rw [PathMap.get_upd]
      by_cases h : old = j <;> simp [h]
  obtain ⟨p0, hp0, h1, h2⟩ : ∃ p0, m.deactivate.get pid = some p0 ∧ p0.state = p.state ∧ p0.dcid = p.dcid := by
    rw [hde]
    split
    · exact ⟨{ p with active := false }, by rw [hp]; rfl, rfl, rfl⟩
    · exact ⟨p, hp, rfl, rfl⟩
  have fin : ∀ (f : Path → Path) (m' : PathMap), (∀ q, (f q).active = true ∧ (f q).state = q.state ∧ (f q).dcid = q.dcid) →
      m'.slots = (m.deactivate.upd pid f).slots →
      (∃ q, m'.get pid = some q ∧ q.active = true ∧ q.state = p.state ∧ q.dcid = p.dcid) ∧
      ∀ j, j ≠ pid → ∀ q, m'.get j = some q → ∃ p', m.get j = some p' ∧ q.dcid = p'.dcid ∧ q.state = p'.state ∧
        q.active = (p'.active && !decide (m.activeId = some j)) := by
    intro f m' hf hm
    have hget : ∀ j, m'.get j = (m.deactivate.upd pid f).get j := by intro j; unfold PathMap.get; rw [hm]
    constructor
    · rw [hget, PathMap.get_upd, if_pos rfl, hp0]
      obtain ⟨f1, f2, f3⟩ := hf p0
      exact ⟨f p0, rfl, f1, f2.trans h1, f3.trans h2⟩
    · intro j hj q hq
      rw [hget, PathMap.get_upd, if_neg (fun h => hj h.symm), hde] at hq
      split at hq
      · rename_i ha
        cases hg : m.get j with
        | none => rw [hg] at hq; cases hq
        | some x =>
          rw [hg] at hq
          cases hq
          exact ⟨x, rfl, rfl, rfl, by simp [ha]⟩
      · rename_i ha
        exact ⟨q, hq, rfl, rfl, by simp [ha]⟩
  unfold PathMap.setActive
  dsimp only
  rw [hp0]
  dsimp only
  split
  · split
    · exact ⟨rfl, fin (fun p => { p with active := true }) _ (fun q => ⟨rfl, rfl, rfl⟩) rfl⟩
    · exact ⟨rfl, fin (·.startMigrating) _ startMigrating_frame rfl⟩
  · exact ⟨rfl, fin (fun p => { p with active := true }) _ (fun q => ⟨rfl, rfl, rfl⟩) rfl⟩

/-- If at most the active path has the flag, afterwards at most the new one has it. -/
theorem setActive_flags (m : PathMap) {pid : Nat} {p : Path} (hp : m.get pid = some p)
    (hu : ∀ j q, m.get j = some q → q.active = true → m.activeId = some j) :
    ∀ j q, (m.setActive pid).2.get j = some q → q.active = true → j = pid := by
  intro j q hq hqa
  apply Classical.byContradiction
  intro hj
  obtain ⟨p', hp', _, _, ha⟩ := (setActive_spec m hp).2.2 j hj q hq
  rw [hqa] at ha
  have ha := ha.symm
  rw [Bool.and_eq_true] at ha
  have := hu j p' hp' ha.1
  rw [this] at ha
  simp at ha

theorem Fit.setActive {q pid : Nat} {p : Path} (hp : m.get pid = some p) (h : Fit m q) : Fit (m.setActive pid).2 q := by
  have hr := SameD.setActive m pid
  obtain ⟨p', hp', hs⟩ := h
  obtain ⟨r, hr', _⟩ := hr.fwd q p' hp'
  obtain ⟨_, ⟨x, hx, _, hxs, _⟩, ho⟩ := setActive_spec m hp
  by_cases hq : q = pid
  · subst hq
    rw [hp] at hp'
    cases hp'
    exact ⟨x, hx, by rw [hxs]; exact hs⟩
  · obtain ⟨y, hy, _, hys, _⟩ := ho q hq r hr'
    rw [hp'] at hy
    cases hy
    exact ⟨r, hr', by rw [hys]; exact hs⟩

/-- What a timer does to a path. -/
def Decay (p q : Path) : Prop := q.dcid = p.dcid ∧ (q.active = true → p.active = true ∧ (p.state ≠ .failed → q.state ≠ .failed))

theorem Decay.refl (p : Path) : Decay p p := ⟨rfl, fun h => ⟨h, fun h => h⟩⟩
theorem Decay.trans (p q r : Path) (h1 : Decay p q) (h2 : Decay q r) : Decay p r :=
  ⟨h2.1.trans h1.1, fun h => ⟨(h1.2 (h2.2 h).1).1, fun hp => (h2.2 h).2 ((h1.2 (h2.2 h).1).2 hp)⟩⟩

theorem Decay.timeout (p : Path) (now rtt : Nat) (s : Bool) : Decay p (p.onTimeout now rtt s) := by
  unfold Path.onTimeout
  dsimp only
  split
  · exact ⟨rfl, fun h => ⟨h, fun h => h⟩⟩
  · rename_i c _
    have h : Decay p (Path.countLost { p with inFlight := p.inFlight.filter fun c => !decide (c.time ≤ now) } c.time rtt) := by
      unfold Path.countLost
      split
      · split <;> exact ⟨rfl, fun h => ⟨h, fun h => h⟩⟩
      · exact ⟨rfl, fun h => ⟨h, fun h => h⟩⟩
    split
    · exact ⟨h.1, fun h => by cases h⟩
    · exact ⟨h.1, h.2⟩

theorem Decay.expire (c : Conn) (now : Nat) (l : List (Nat × Nat)) : Rel Decay c.paths (c.expire now l).paths := by
  induction l generalizing c with
  | nil => exact Rel.refl Decay.refl _
  | cons x l ih =>
    obtain ⟨pid, rtt⟩ := x
    simp only [Conn.expire]
    have h1 : Rel Decay c.paths (c.paths.upd pid (·.onTimeout now rtt c.server)) := Rel.upd Decay.refl fun p _ => Decay.timeout p now rtt c.server
    exact h1.trans Decay.trans (ih { c with paths := c.paths.upd pid (·.onTimeout now rtt c.server) })

theorem Decay.notifyFailed (m : PathMap) : Rel Decay m m.notifyFailed := by
  refine ⟨by simp [PathMap.notifyFailed], rfl, rfl, rfl, rfl, ?_, ?_⟩
  · intro i p hp
    rw [Quiet.get_notifyFailed, hp]
    split
    · exact ⟨_, rfl, rfl, fun h => ⟨h, fun h => h⟩⟩
    · exact ⟨p, rfl, Decay.refl p⟩
  · intro i q hq
    rw [Quiet.get_notifyFailed] at hq
    split at hq
    · cases hp : m.get i with
      | none => rw [hp] at hq; cases hq
      | some p => rw [hp] at hq; cases hq; exact ⟨p, rfl, rfl, fun h => ⟨h, fun h => h⟩⟩
    · exact ⟨q, hq, Decay.refl q⟩

theorem Single.decay (h : Single m) (hr : Rel Decay m m') : Single m' ∨ NoFlag m' := by
  obtain ⟨i, p, hp, ha, hu⟩ := h
  obtain ⟨a1, a2, a3⟩ := isActive_iff.mp ha
  obtain ⟨q, hq, h1, h2⟩ := hr.fwd i p hp
  have hu' : ∀ j r, m'.get j = some r → r.active = true → j = i := by
    intro j r hr' hra
    obtain ⟨p', hp', g1, g2⟩ := hr.bwd j r hr'
    exact hu j p' hp' (g2 hra).1
  cases hqa : q.active with
  | true => exact Or.inl ⟨i, q, hq, isActive_iff.mpr ⟨hqa, (h2 hqa).2 a2, by rw [h1]; exact a3⟩, hu'⟩
  | false =>
    right
    intro j r hr'
    cases hra : r.active with
    | false => rfl
    | true =>
      have := hu' j r hr' hra
      subst this
      rw [hq] at hr'
      cases hr'
      rw [hqa] at hra
      cases hra

/-- A path with connection ID that is not failed becomes the active one. -/
theorem Single.setActive {pid : Nat} {p : Path} (hp : m.get pid = some p) (hs : p.state ≠ .failed) (hd : p.dcid.isSome = true)
    (hu : ∀ j q, m.get j = some q → q.active = true → m.activeId = some j) : Single (m.setActive pid).2 := by
  obtain ⟨_, ⟨q, hq, h1, h2, h3⟩, _⟩ := setActive_spec m hp
  exact ⟨pid, q, hq, isActive_iff.mpr ⟨h1, by rw [h2]; exact hs, by rw [h3]; exact hd⟩, setActive_flags m hp hu⟩

theorem Single.flags (h : Single m) : ∀ j q, m.get j = some q → q.active = true → m.activeId = some j := by
  obtain ⟨i, p, ha, _, _, hu⟩ := activeId_of_single h
  intro j q hq hqa
  rw [ha, hu j q hq hqa]

/-- Unless the connection is closed, one path is active; and those of `l` are not failed. -/
structure One (l : List Nat) (c : Conn) : Prop where
  one : c.closed = true ∨ (Single c.paths ∧ (c.server = true → c.noReuse = false) ∧ ∀ q ∈ l, Fit c.paths q)
  zero : c.ids.zeroLenDcid = true → 0 ∈ keys c.ids.dcids.inner
  kept : ∀ k ∈ c.kept, ∀ f ∈ k.frames, NoRetire f

theorem onPeerMigrated_frame (c : Conn) (pid : Nat) : ∃ m, (c.onPeerMigrated pid).2 = { c with paths := m } := by
  unfold Conn.onPeerMigrated Conn.setActive
  rcases c.paths.setActive pid with ⟨x, m⟩
  split
  · exact ⟨_, rfl⟩
  · split
    · exact ⟨_, rfl⟩
    · cases x with
      | error => exact ⟨_, rfl⟩
      | ok =>
        dsimp only
        unfold Conn.reuseDcid
        split
        · exact ⟨_, rfl⟩
        · split
          · split <;> exact ⟨_, rfl⟩
          · exact ⟨_, rfl⟩

theorem one_walk : Walk One NoRetire where
  sub hs h := ⟨h.one.imp id fun ⟨a, b, d⟩ => ⟨a, b, fun q hq => d q (hs q hq)⟩, h.zero, h.kept⟩
  active {l c pid} h ha := by
    refine ⟨h.one.imp id fun ⟨a, b, d⟩ => ⟨a, b, fun q hq => ?_⟩, h.zero, h.kept⟩
    rcases List.mem_cons.mp hq with hq | hq
    · subst hq
      obtain ⟨p, hp, hpa⟩ := PathMap.find_some ha
      exact ⟨p, hp, (isActive_iff.mp hpa).2.1⟩
    · exact d q hq
  kept h := h.kept
  soft h hr := ⟨h.one.imp id fun ⟨a, b, d⟩ => ⟨a.soft hr, b, fun q hq => (d q hq).soft hr⟩, h.zero, h.kept⟩
  rest {l c c'} h hp hd hz hs hn hc hk := by
    refine ⟨?_, by rw [hz, hd]; exact h.zero, ?_⟩
    · rcases h.one with h1 | ⟨a, b, d⟩
      · exact Or.inl (hc h1)
      · exact Or.inr ⟨by rw [hp]; exact a, by rw [hs, hn]; exact b, by rw [hp]; exact d⟩
    · intro k hk' f hf
      rcases hk k hk' with hk | hk
      · exact h.kept k hk f hf
      · exact hk f hf
  zero h _ hp hd := ⟨h.one.imp id fun ⟨a, b, d⟩ => ⟨a.give hp hd _, b, fun q hq => (d q hq).upd fun _ => rfl⟩, h.zero, h.kept⟩
  link {l c pid p n} h hn hp hd := by
    obtain ⟨h1, h2⟩ := linkDcid_keys (lowest_keys hn) pid
    exact ⟨h.one.imp id fun ⟨a, b, d⟩ => ⟨a.give hp hd _, b, fun q hq => (d q hq).upd fun _ => rfl⟩,
      by dsimp only; rw [h1, h2]; exact h.zero, h.kept⟩
  newCid {l c} cid seq token rpt h hW := by
    obtain ⟨ids, h1, h2, h3⟩ := onNewCid_keeps c cid seq token rpt (hW _ _ _ _ rfl)
    rw [h1]
    exact ⟨h.one, fun hz => h3 0 (h.zero (h2 ▸ hz)), h.kept⟩
  insert {c p pid m n} h hi hd ha hs := by
    refine ⟨h.one.imp id fun ⟨a, b, _⟩ => ⟨?_, b, fun q hq => ?_⟩, h.zero, h.kept⟩
    · obtain ⟨i, p', hp', hpa, hu⟩ := a
      have hne : i ≠ pid := by
        intro he
        subst he
        rcases hi.place with ⟨hl, _⟩ | ⟨⟨old, ho, hun⟩, _⟩
        · have := PathMap.get_lt hp'; omega
        · rw [ho] at hp'
          cases hp'
          unfold Path.unused at hun
          rw [hpa] at hun
          cases hun
      refine ⟨i, p', by rw [← hi.other i hne] at hp'; exact hp', hpa, ?_⟩
      intro j q hq hqa
      have hq : m.get j = some q := hq
      by_cases hj : j = pid
      · rw [hj, hi.self] at hq; cases hq; rw [ha] at hqa; cases hqa
      · rw [hi.other j hj] at hq; exact hu j q hq hqa
    · rw [List.mem_singleton.mp hq]
      exact ⟨p, hi.self, by rw [hs]; decide⟩
  client {c p pid m n k} h hi hd ha hs hav := by
    have hk : n ∈ keys c.ids.dcids.inner := by
      split at hav
      · rename_i hz; cases hav; exact h.zero hz
      · exact lowest_keys hav
    obtain ⟨h1, h2⟩ := linkDcid_keys hk pid
    refine ⟨h.one.imp id fun ⟨a, b, _⟩ => ⟨?_, b, fun q hq => ?_⟩, by dsimp only; rw [h1, h2]; exact h.zero, h.kept⟩
    · obtain ⟨i, p', hp', hpa, hu⟩ := a
      have hne : i ≠ pid := by
        intro he
        subst he
        rcases hi.place with ⟨hl, _⟩ | ⟨⟨old, ho, hun⟩, _⟩
        · have := PathMap.get_lt hp'; omega
        · rw [ho] at hp'
          cases hp'
          unfold Path.unused at hun
          rw [hpa] at hun
          cases hun
      refine ⟨i, p', by rw [← hi.other i hne] at hp'; exact hp', hpa, ?_⟩
      intro j q hq hqa
      have hq : m.get j = some q := hq
      by_cases hj : j = pid
      · rw [hj, hi.self] at hq; cases hq; rw [ha] at hqa; cases hqa
      · rw [hi.other j hj] at hq; exact hu j q hq hqa
    · rw [List.mem_singleton.mp hq]
      exact ⟨p, hi.self, by rw [hs]; decide⟩
  clientKeys h hz := h.zero hz
  act {l c pid p} h hl hp hd := by
    refine ⟨h.one.imp id fun ⟨a, b, d⟩ => ?_, h.zero, h.kept⟩
    obtain ⟨p', hp', hs⟩ := d pid hl
    rw [hp] at hp'
    cases hp'
    exact ⟨Single.setActive hp hs hd a.flags, b, fun q hq => Fit.setActive hp (d q hq)⟩
  migrated {l c pid} h hl hs := by
    rcases h.one with hc | ⟨a, b, d⟩
    · obtain ⟨m, hm⟩ := onPeerMigrated_frame c pid
      rw [hm]
      exact ⟨Or.inl hc, h.zero, h.kept⟩
    · obtain ⟨i, pi, hai, hpi, hpa, hu⟩ := activeId_of_single a
      obtain ⟨p, hp, hst⟩ := d pid hl
      unfold Conn.onPeerMigrated
      rw [hai]
      dsimp only
      split
      · exact h
      · rename_i hne
        obtain ⟨h1, ⟨q, hq, q1, q2, q3⟩, ho⟩ := setActive_spec c.paths hp
        have hfl := setActive_flags c.paths hp a.flags
        unfold Conn.setActive
        dsimp only
        rw [h1]
        dsimp only
        have hb := b hs
        obtain ⟨r, hr, hrd⟩ := (SameD.setActive c.paths pid).fwd i pi hpi
        have hrs : r.dcid.isSome = true := by rw [hrd]; exact (isActive_iff.mp hpa).2.2
        have hfit : ∀ k ∈ l, Fit (c.paths.setActive pid).2 k := fun k hk => Fit.setActive hp (d k hk)
        unfold Conn.reuseDcid
        dsimp only
        rw [hq]
        dsimp only
        split
        · rw [hr]
          dsimp only
          refine ⟨Or.inr ⟨?_, b, fun k hk => (hfit k hk).upd fun _ => rfl⟩, h.zero, h.kept⟩
          refine ⟨pid, { q with dcid := r.dcid }, by rw [PathMap.get_upd, if_pos rfl, hq]; rfl,
            isActive_iff.mpr ⟨q1, by rw [q2]; exact hst, hrs⟩, ?_⟩
          intro j x hx hxa
          rw [PathMap.get_upd] at hx
          split at hx
          · rename_i hj; exact hj.symm
          · exact hfl j x hx hxa
        · rename_i hcond
          have hqd : q.dcid.isSome = true := by
            cases hqd : q.dcid with
            | some x => rfl
            | none => exact absurd ⟨by rw [hqd]; rfl, hb⟩ hcond
          exact ⟨Or.inr ⟨⟨pid, q, hq, isActive_iff.mpr ⟨q1, by rw [q2]; exact hst, hqd⟩, hfl⟩, b, hfit⟩, h.zero, h.kept⟩

/-- When a timer makes the active path fail, another one becomes it or the connection is
closed. -/
theorem one_timeout (h : One [] c) (now : Nat) (due : List (Nat × Nat)) : One [] (c.onTimeout now due) := by
  obtain ⟨m, b, he, _, hcl⟩ := SameD.onTimeout c now due
  refine ⟨?_, by rw [he]; exact h.zero, by rw [he]; exact h.kept⟩
  rcases h.one with hc | ⟨a, hb, _⟩
  · left; rw [he]; exact hcl hc
  · unfold Conn.onTimeout
    have h2 := (SameD.expire c now due).2
    have hr := (Decay.expire c now due).trans Decay.trans (Decay.notifyFailed _)
    dsimp only
    rw [h2]
    dsimp only
    generalize (c.expire now due).paths.notifyFailed = m' at hr
    unfold Conn.fallback
    dsimp only
    rcases a.decay hr with hs | hs
    · obtain ⟨i, pi, hai, _⟩ := activeId_of_single hs
      rw [hai]
      exact Or.inr ⟨hs, hb, fun q hq => by cases hq⟩
    · have hnone : m'.activeId = none := by
        cases ha : m'.activeId with
        | none => rfl
        | some k =>
          obtain ⟨q, hq, hqa⟩ := PathMap.find_some ha
          have := hs k q hq
          rw [(isActive_iff.mp hqa).1] at this
          cases this
      rw [hnone]
      dsimp only
      split
      · exact Or.inl rfl
      · rename_i pid hcand
        obtain ⟨q, hq, hqu⟩ := PathMap.find_some hcand
        have hst : q.state ≠ .failed ∧ q.dcid.isSome = true := by
          unfold Path.usable at hqu
          rw [Bool.or_eq_true, Bool.and_eq_true, decide_eq_true_eq] at hqu
          rcases hqu with hqu | hqu
          · exact (isActive_iff.mp hqu).2
          · exact ⟨by rw [hqu.1]; decide, hqu.2⟩
        have hsa := Single.setActive hq hst.1 hst.2 fun j r hr' hra => by rw [hs j r hr'] at hra; cases hra
        unfold Conn.setActive
        dsimp only
        rw [(setActive_spec m' hq).1]
        dsimp only
        exact Or.inr ⟨hsa, hb, fun q hq => by cases hq⟩

end Verif.Path
