import Verif.Path.Walk

/-!
Two invariants about the destination connection IDs of paths: each path's own is stored
and linked to it, if IDs are not used on two paths; and it is at least stored, if none is
retired.
-/

namespace Verif.Path
open Verif
open Verif.Cid (Ids Err Entry Deque keys)

variable {c c' c'' : Conn}

theorem mem_put_self {l : List Entry} {e : Entry} (h : e.seq ∈ keys l) : e ∈ Deque.put l e := by
  induction l with
  | nil => cases h
  | cons x l ih =>
    unfold Deque.put
    split
    · exact List.mem_cons_self
    · rename_i hx
      simp only [keys, List.map_cons, List.mem_cons] at h
      rcases h with h | h
      · exact absurd h.symm hx
      · exact List.mem_cons_of_mem _ (ih h)

theorem mem_put_other {l : List Entry} {e x : Entry} (h : x ∈ l) (hx : x.seq ≠ e.seq) : x ∈ Deque.put l e := by
  induction l with
  | nil => cases h
  | cons y l ih =>
    unfold Deque.put
    split
    · rename_i hy
      rcases List.mem_cons.mp h with h | h
      · subst h; exact absurd hy hx
      · exact List.mem_cons_of_mem _ h
    · rcases List.mem_cons.mp h with h | h
      · subst h; exact List.mem_cons_self
      · exact List.mem_cons_of_mem _ (ih h)

theorem mem_put_or {l : List Entry} {e x : Entry} (h : x ∈ Deque.put l e) : x = e ∨ x ∈ l := by
  induction l with
  | nil => cases h
  | cons y l ih =>
    unfold Deque.put at h
    split at h
    · rcases List.mem_cons.mp h with h | h
      · exact Or.inl h
      · exact Or.inr (List.mem_cons_of_mem _ h)
    · rcases List.mem_cons.mp h with h | h
      · exact Or.inr (h ▸ List.mem_cons_self)
      · exact (ih h).imp id (List.mem_cons_of_mem _)

/-- A change that leaves the destination connection ID of a path. -/
def SameD (p q : Path) : Prop := q.dcid = p.dcid

namespace SameD

theorem refl (p : Path) : SameD p p := rfl
theorem trans (p q r : Path) (h1 : SameD p q) (h2 : SameD q r) : SameD p r := Eq.trans h2 h1

theorem timeout (p : Path) (now rtt : Nat) (s : Bool) : SameD p (p.onTimeout now rtt s) := by
  unfold Path.onTimeout
  dsimp only
  split
  · rfl
  · rename_i c _
    have h : SameD p (Path.countLost { p with inFlight := p.inFlight.filter fun c => !decide (c.time ≤ now) } c.time rtt) := by
      unfold Path.countLost
      split
      · split <;> rfl
      · rfl
    split
    · exact h
    · exact h

theorem deactivate (m : PathMap) : Rel SameD m m.deactivate := by
  unfold PathMap.deactivate
  split
  · exact Rel.refl refl m
  · exact Rel.upd refl fun p _ => rfl

theorem setActive (m : PathMap) (pid : Nat) : Rel SameD m (m.setActive pid).2 := by
  unfold PathMap.setActive
  dsimp only
  have h := deactivate m
  split
  · exact h
  · split
    · split
      · exact (h.trans trans (Rel.upd (pid := pid) (f := fun p => { p with active := true }) refl fun p _ => rfl)).trans trans (Rel.notify refl _ _)
      · refine h.trans trans (Rel.upd refl fun q hq => ?_)
        unfold Path.startMigrating Path.request
        dsimp only
        split <;> rfl
    · exact h.trans trans (Rel.upd refl fun p _ => rfl)

theorem notifyFailed (m : PathMap) : Rel SameD m m.notifyFailed := by
  refine ⟨by simp [PathMap.notifyFailed], rfl, rfl, rfl, rfl, ?_, ?_⟩
  · intro i p hp
    rw [Quiet.get_notifyFailed, hp]
    split
    · exact ⟨_, rfl, rfl⟩
    · exact ⟨p, rfl, rfl⟩
  · intro i q hq
    rw [Quiet.get_notifyFailed] at hq
    split at hq
    · cases hp : m.get i with
      | none => rw [hp] at hq; cases hq
      | some p => rw [hp] at hq; cases hq; exact ⟨p, rfl, rfl⟩
    · exact ⟨q, hq, rfl⟩

theorem expire (c : Conn) (now : Nat) (l : List (Nat × Nat)) : Rel SameD c.paths (c.expire now l).paths ∧
    c.expire now l = { c with paths := (c.expire now l).paths } := by
  induction l generalizing c with
  | nil => exact ⟨Rel.refl refl _, rfl⟩
  | cons x l ih =>
    obtain ⟨pid, rtt⟩ := x
    simp only [Conn.expire]
    have h1 : Rel SameD c.paths (c.paths.upd pid (·.onTimeout now rtt c.server)) := Rel.upd refl fun p _ => timeout p now rtt c.server
    have h2 := ih { c with paths := c.paths.upd pid (·.onTimeout now rtt c.server) }
    exact ⟨h1.trans trans h2.1, h2.2⟩

/-- A timeout only changes the paths, and may close the connection. -/
theorem onTimeout (c : Conn) (now : Nat) (due : List (Nat × Nat)) :
    ∃ m b, c.onTimeout now due = { c with paths := m, closed := b } ∧ Rel SameD c.paths m ∧ (c.closed = true → b = true) := by
  unfold Conn.onTimeout
  obtain ⟨h1, h2⟩ := expire c now due
  dsimp only
  rw [h2]
  generalize (c.expire now due).paths = m at h1
  have h3 := h1.trans trans (notifyFailed m)
  dsimp only
  generalize m.notifyFailed = m' at h3
  unfold Conn.fallback
  dsimp only
  split
  · exact ⟨m', c.closed, rfl, h3, fun h => h⟩
  · split
    · exact ⟨m', true, rfl, h3, fun _ => rfl⟩
    · rename_i pid _
      have h4 := h3.trans trans (setActive m' pid)
      split
      · rename_i heq
        have := congrArg Prod.snd heq
        dsimp only at this
        rw [← this]
        exact ⟨_, true, rfl, h4, fun _ => rfl⟩
      · rename_i heq
        have := congrArg Prod.snd heq
        dsimp only at this
        rw [← this]
        exact ⟨_, c.closed, rfl, h4, fun h => h⟩

end SameD

/-- The destination connection ID of each path is stored and linked to it, but for the
pairs `l`, whose IDs were just removed. -/
structure OwnL (c : Conn) (l : List (Nat × Nat)) : Prop where
  nodup : (keys c.ids.dcids.inner).Nodup
  back : ∀ e ∈ c.ids.dcids.inner, ∀ pid, e.path = some pid → ∃ p, c.paths.get pid = some p
  own : ∀ pid p d, c.paths.get pid = some p → p.dcid = some d → (∃ e ∈ c.ids.dcids.inner, e.seq = d ∧ (e.path = some pid ∨ c.ids.zeroLenDcid = true)) ∨ (d, pid) ∈ l
  zero : c.ids.zeroLenDcid = true → keys c.ids.dcids.inner = [0]
  share : c.server = true → c.noReuse = true

abbrev Own (c : Conn) : Prop := OwnL c []

namespace OwnL

variable {l : List (Nat × Nat)}

theorem rel (h : OwnL c l) {m : PathMap} (hr : Rel SameD c.paths m) : OwnL { c with paths := m } l := by
  refine ⟨h.nodup, ?_, ?_, h.zero, h.share⟩
  · intro e he pid hp
    obtain ⟨p, hp⟩ := h.back e he pid hp
    obtain ⟨q, hq, _⟩ := hr.fwd pid p hp
    exact ⟨q, hq⟩
  · intro pid q d hq hd
    obtain ⟨p, hp, hpq⟩ := hr.bwd pid q hq
    exact h.own pid p d hp (hpq ▸ hd)

/-- A path takes an unused connection ID. -/
theorem link (h : OwnL c l) {n pid : Nat} {p : Path} (hn : c.ids.lowestAvailable = some n) (hp : c.paths.get pid = some p) :
    OwnL { c with ids := (c.ids.linkDcid n pid).2, paths := c.paths.upd pid fun p => { p with dcid := some n } } (l.filter (·.2 ≠ pid)) := by
  obtain ⟨e, he, hl⟩ := linkDcid_ok (lowest_keys hn) pid
  obtain ⟨e', he', hs', hp'⟩ := lowestAvailable_mem hn
  obtain ⟨hem, hes⟩ := Cid.find_seq_some he
  have hee : e = e' := Cid.eq_of_seq h.nodup hem he' (hes.trans hs'.symm)
  rw [← hee] at hp'
  rw [hl]
  have hself : ({ e with path := some pid } : Entry) ∈ Deque.put c.ids.dcids.inner { e with path := some pid } :=
    mem_put_self (by dsimp only; rw [hes]; exact lowest_keys hn)
  have hex : ∀ q p', c.paths.get q = some p' → ∃ p'', (c.paths.upd pid fun p => { p with dcid := some n }).get q = some p'' := by
    intro q p' hq
    rw [PathMap.get_upd]
    split
    · exact ⟨_, by rw [hq]; rfl⟩
    · exact ⟨p', hq⟩
  refine ⟨by dsimp only; rw [Cid.keys_put]; exact h.nodup, ?_, ?_, fun hz => by dsimp only at hz ⊢; rw [Cid.keys_put]; exact h.zero hz, h.share⟩
  · intro x hx q hq
    rcases mem_put_or hx with hx | hx
    · subst hx
      have hq : some pid = some q := hq
      cases hq
      exact hex pid p hp
    · obtain ⟨p', hp'⟩ := h.back x hx q hq
      exact hex q p' hp'
  · intro q r d hq hd
    have hq : (c.paths.upd pid fun p => { p with dcid := some n }).get q = some r := hq
    rw [PathMap.get_upd] at hq
    split at hq
    · rename_i hpq
      subst hpq
      rw [hp] at hq
      cases hq
      cases hd
      exact Or.inl ⟨_, hself, hes, Or.inl rfl⟩
    · rename_i hpq
      rcases h.own q r d hq hd with ⟨x, hx, hxs, hxp⟩ | hx
      · left
        by_cases hxe : x.seq = e.seq
        · exact ⟨_, hself, hxe.symm.trans hxs, hxp.imp (fun hxp => by
            have : x = e := Cid.eq_of_seq h.nodup hx hem hxe
            rw [this, hp'] at hxp
            cases hxp) fun h => h⟩
        · exact ⟨x, mem_put_other hx hxe, hxs, hxp⟩
      · exact Or.inr (List.mem_filter.mpr ⟨hx, by simpa using fun h => hpq h.symm⟩)

/-- A path loses its connection ID. -/
theorem clear (h : OwnL c l) (pid : Nat) :
    OwnL { c with paths := c.paths.upd pid fun p => { p with dcid := none } } (l.filter (·.2 ≠ pid)) := by
  refine ⟨h.nodup, ?_, ?_, h.zero, h.share⟩
  · intro x hx q hq
    obtain ⟨p', hp'⟩ := h.back x hx q hq
    dsimp only
    rw [PathMap.get_upd]
    split
    · exact ⟨_, by rw [hp']; rfl⟩
    · exact ⟨p', hp'⟩
  · intro q r d hq hd
    have hq : (c.paths.upd pid fun p => { p with dcid := none }).get q = some r := hq
    rw [PathMap.get_upd] at hq
    split at hq
    · cases hg : c.paths.get q with
      | none => rw [hg] at hq; cases hq
      | some x => rw [hg] at hq; cases hq; cases hd
    · rename_i hpq
      exact (h.own q r d hq hd).imp id fun hx => List.mem_filter.mpr ⟨hx, by simpa using fun h => hpq h.symm⟩

theorem weaken {l' : List (Nat × Nat)} (h : OwnL c l) (hl : ∀ x ∈ l, x ∈ l' ∨ ∀ p, c.paths.get x.2 = some p → p.dcid ≠ some x.1) : OwnL c l' := by
  refine ⟨h.nodup, h.back, ?_, h.zero, h.share⟩
  intro q r d hq hd
  rcases h.own q r d hq hd with hx | hx
  · exact Or.inl hx
  · rcases hl _ hx with hl | hl
    · exact Or.inr hl
    · exact absurd hd (hl r hq)

/-- The paths of removed connection IDs take others. -/
theorem repath (h : OwnL c l) (hl : ∀ x ∈ l, ∃ p, c.paths.get x.2 = some p) : Own (c.repath l).2 := by
  induction l generalizing c with
  | nil => exact h
  | cons x l ih =>
    obtain ⟨seq, pid⟩ := x
    simp only [Conn.repath]
    obtain ⟨p, hp⟩ := hl _ List.mem_cons_self
    have hp : c.paths.get pid = some p := hp
    have hexU : ∀ (f : Path → Path) q p', c.paths.get q = some p' → ∃ p'', (c.paths.upd pid f).get q = some p'' := by
      intro f q p' hq
      rw [PathMap.get_upd]
      split
      · exact ⟨_, by rw [hq]; rfl⟩
      · exact ⟨p', hq⟩
    rw [hp]
    dsimp only
    split
    · rename_i hne
      refine ih (h.weaken fun x hx => ?_) fun x hx => hl x (List.mem_cons_of_mem _ hx)
      rcases List.mem_cons.mp hx with hx | hx
      · subst hx
        refine Or.inr fun q hq => ?_
        have hq : c.paths.get pid = some q := hq
        rw [hp] at hq
        cases hq
        exact hne
      · exact Or.inl hx
    · split
      · rename_i n hn
        have h1 := h.link hn hp
        obtain ⟨e, he, hlk⟩ := linkDcid_ok (lowest_keys hn) pid
        rw [hlk] at h1 ⊢
        refine ih (h1.weaken fun x hx => ?_) fun x hx => ?_
        · obtain ⟨hx, hne⟩ := List.mem_filter.mp hx
          rcases List.mem_cons.mp hx with hx | hx
          · subst hx; simp at hne
          · exact Or.inl hx
        · obtain ⟨p', hp'⟩ := hl x (List.mem_cons_of_mem _ hx)
          exact hexU _ _ p' hp'
      · have h1 := h.clear pid
        refine ih (h1.weaken fun x hx => ?_) fun x hx => ?_
        · obtain ⟨hx, hne⟩ := List.mem_filter.mp hx
          rcases List.mem_cons.mp hx with hx | hx
          · subst hx; simp at hne
          · exact Or.inl hx
        · obtain ⟨p', hp'⟩ := hl x (List.mem_cons_of_mem _ hx)
          exact hexU _ _ p' hp'

end OwnL

/-- What `new_dcid` does with the connection IDs stored: nothing, or those below a number
go and the new one comes, without path, unless there are too many. -/
theorem newDcid_inner (s : Ids) (cid : Bytes) (seq token rpt : Nat) :
    ((s.newDcid cid seq token rpt).2.1 = [] ∧ (s.newDcid cid seq token rpt).2.2.dcids = s.dcids) ∨
    ∃ r : Nat, (rpt = 0 → r = 0) ∧ seq ∉ keys s.dcids.inner ∧
      (s.newDcid cid seq token rpt).2.1 = (s.dcids.inner.filter (·.seq < r)).filterMap (fun e => e.path.map fun p => (e.seq, p)) ∧
      ((s.newDcid cid seq token rpt).2.2.dcids.inner = s.dcids.inner.filter (fun e => !decide (e.seq < r)) ∨
        ∃ t, (s.newDcid cid seq token rpt).2.2.dcids.inner = s.dcids.inner.filter (fun e => !decide (e.seq < r)) ++ [⟨cid, seq, t, none⟩]) := by
  have ins : ∀ (s : Ids) (e : Entry) (err : Option Err), e.seq ∉ keys s.dcids.inner →
      (s.insertDcid e err).2.dcids.inner = s.dcids.inner ∨ (s.insertDcid e err).2.dcids.inner = s.dcids.inner ++ [e] := by
    intro s e err hn
    unfold Ids.insertDcid
    split
    · exact Or.inl rfl
    · rename_i d hd
      right
      have := (Cid.insert_new hn hd).1
      rw [this]
      dsimp only
      split <;> rfl
  have note : ∀ n, (s.noteSeq n).dcids = s.dcids := by intro n; unfold Ids.noteSeq; split <;> rfl
  unfold Ids.newDcid
  split
  · exact Or.inl ⟨rfl, rfl⟩
  · split
    · split <;> exact Or.inl ⟨rfl, rfl⟩
    · rename_i hf
      have hns : seq ∉ keys s.dcids.inner := by
        intro hk
        obtain ⟨e, he, hes⟩ := List.mem_map.mp hk
        have := List.find?_eq_none.mp hf e he
        simp [hes] at this
      split
      · exact Or.inl ⟨rfl, rfl⟩
      · split
        · obtain ⟨r, hr⟩ := Cid.markRetire_frame s seq true
          dsimp only
          rw [hr]
          exact Or.inl ⟨rfl, rfl⟩
        · dsimp only
          split
          · rename_i hgt
            right
            refine ⟨rpt, fun h => h, hns, ?_, ?_⟩
            · rw [note]
            · have hn2 : seq ∉ keys ((s.noteSeq seq).dcids.inner.filter fun e => !decide (e.seq < rpt)) := by
                rw [note]
                intro hk
                obtain ⟨e, he, hes⟩ := List.mem_map.mp hk
                exact hns (List.mem_map.mpr ⟨e, (List.mem_filter.mp he).1, hes⟩)
              rcases ins { (s.noteSeq seq) with
                  dcids := { (s.noteSeq seq).dcids with inner := (s.noteSeq seq).dcids.inner.filter fun e => !decide (e.seq < rpt) }
                  retire := (Ids.retireAll ((s.noteSeq seq).dcids.inner.filter (·.seq < rpt)) (s.noteSeq seq).retire none).1
                  peerRetirePriorTo := rpt } ⟨cid, seq, some token, none⟩
                  (Ids.retireAll ((s.noteSeq seq).dcids.inner.filter (·.seq < rpt)) (s.noteSeq seq).retire none).2 hn2 with h | h
              · left; rw [h, note]
              · right; exact ⟨some token, by rw [h, note]⟩
          · right
            have hnil : s.dcids.inner.filter (fun e => decide (e.seq < 0)) = [] := by
              rw [List.filter_eq_nil_iff]; intro e _; simp
            have hall : s.dcids.inner.filter (fun e => !decide (e.seq < 0)) = s.dcids.inner := by
              rw [List.filter_eq_self]; intro e _; simp
            refine ⟨0, fun _ => rfl, hns, by rw [hnil]; rfl, ?_⟩
            rw [hall]
            rcases ins (s.noteSeq seq) ⟨cid, seq, some token, none⟩ none (by rw [note]; exact hns) with h | h
            · left; rw [h, note]
            · right; exact ⟨some token, by rw [h, note]⟩

theorem newDcid_zeroLen (s : Ids) (cid : Bytes) (seq token rpt : Nat) : (s.newDcid cid seq token rpt).2.2.zeroLenDcid = s.zeroLenDcid := by
  have ins : ∀ (s : Ids) (e : Entry) (err : Option Err), (s.insertDcid e err).2.zeroLenDcid = s.zeroLenDcid := by
    intro s e err
    unfold Ids.insertDcid
    split
    · rfl
    · dsimp only
      split <;> rfl
  have note : ∀ n, (s.noteSeq n).zeroLenDcid = s.zeroLenDcid := by intro n; unfold Ids.noteSeq; split <;> rfl
  unfold Ids.newDcid
  split
  · rfl
  · split
    · split <;> rfl
    · split
      · rfl
      · split
        · obtain ⟨r, hr⟩ := Cid.markRetire_frame s seq true
          dsimp only
          rw [hr]
        · dsimp only
          split
          · rw [ins]; exact note seq
          · rw [ins]; exact note seq

theorem onNewCid_snd (c : Conn) (cid : Bytes) (seq token rpt : Nat) (hz : c.ids.zeroLenDcid = false) :
    (c.onNewCid cid seq token rpt).2 = (Conn.repath { c with ids := (c.ids.newDcid cid seq token rpt).2.2 } (c.ids.newDcid cid seq token rpt).2.1).2 := by
  unfold Conn.onNewCid
  rw [hz]
  simp only [Bool.false_eq_true, if_false]
  split <;> (rename_i heq; rw [heq])

/-- The frame does not make the receiver retire. -/
def NoRetire (f : Frame) : Prop := ∀ cid seq token rpt, f = .newCid cid seq token rpt → rpt = 0

theorem own_walk : Walk (fun _ c => Own c) (fun _ => True) where
  sub _ h := h
  active h _ := h
  kept _ _ _ _ _ := trivial
  soft h hr := h.rel (hr.mono fun _ _ h => h.1)
  rest {l c c'} h hp hd hz hs hn _ _ := by
    refine ⟨by rw [hd]; exact h.nodup, ?_, ?_, ?_, ?_⟩
    · rw [hd, hp]; exact h.back
    · rw [hd, hp, hz]; exact h.own
    · rw [hd, hz]; exact h.zero
    · rw [hs, hn]; exact h.share
  zero {l c pid p} h hz hp _ := by
    have hk := h.zero hz
    refine ⟨h.nodup, ?_, ?_, h.zero, h.share⟩
    · intro x hx q hq
      obtain ⟨p', hp'⟩ := h.back x hx q hq
      dsimp only
      rw [PathMap.get_upd]
      split
      · exact ⟨_, by rw [hp']; rfl⟩
      · exact ⟨p', hp'⟩
    · intro q r d hq hd
      have hq : (c.paths.upd pid fun p => { p with dcid := some 0 }).get q = some r := hq
      rw [PathMap.get_upd] at hq
      split at hq
      · cases hg : c.paths.get q with
        | none => rw [hg] at hq; cases hq
        | some x =>
          rw [hg] at hq; cases hq; cases hd
          have : 0 ∈ keys c.ids.dcids.inner := by rw [hk]; exact List.mem_cons_self
          obtain ⟨e, he, hes⟩ := List.mem_map.mp this
          exact Or.inl ⟨e, he, hes, Or.inr hz⟩
      · exact h.own q r d hq hd
  link h hn hp _ := h.link hn hp
  newCid {l c} cid seq token rpt h _ := by
    cases hz : c.ids.zeroLenDcid with
    | true => unfold Conn.onNewCid; rw [hz]; exact h
    | false =>
      rw [onNewCid_snd c cid seq token rpt hz]
      have hzl := newDcid_zeroLen c.ids cid seq token rpt
      rcases newDcid_inner c.ids cid seq token rpt with ⟨h1, h2⟩ | ⟨r, _, hns, h1, h2⟩
      · rw [h1]
        refine OwnL.repath ⟨by dsimp only; rw [h2]; exact h.nodup, by dsimp only; rw [h2]; exact h.back,
          by dsimp only; rw [h2, hzl]; exact h.own, by dsimp only; rw [h2, hzl]; exact h.zero, h.share⟩ fun x hx => by cases hx
      · have hsub : ∀ e ∈ (c.ids.newDcid cid seq token rpt).2.2.dcids.inner, e ∈ c.ids.dcids.inner ∨ e.path = none := by
          intro e he
          rcases h2 with h2 | ⟨t, h2⟩
          · rw [h2] at he; exact Or.inl (List.mem_filter.mp he).1
          · rw [h2] at he
            rcases List.mem_append.mp he with he | he
            · exact Or.inl (List.mem_filter.mp he).1
            · rw [List.mem_singleton.mp he]; exact Or.inr rfl
        have hstay : ∀ e ∈ c.ids.dcids.inner, ¬ e.seq < r → e ∈ (c.ids.newDcid cid seq token rpt).2.2.dcids.inner := by
          intro e he hr
          have : e ∈ c.ids.dcids.inner.filter (fun e => !decide (e.seq < r)) := List.mem_filter.mpr ⟨he, by simpa using hr⟩
          rcases h2 with h2 | ⟨t, h2⟩
          · rw [h2]; exact this
          · rw [h2]; exact List.mem_append_left _ this
        refine OwnL.repath ⟨?_, ?_, ?_, ?_, h.share⟩ ?_
        · have hf : (keys (c.ids.dcids.inner.filter fun e => !decide (e.seq < r))).Nodup :=
            h.nodup.sublist (List.filter_sublist.map _)
          dsimp only
          rcases h2 with h2 | ⟨t, h2⟩
          · rw [h2]; exact hf
          · rw [h2]
            simp only [keys, List.map_append, List.map_cons, List.map_nil]
            refine List.nodup_append.mpr ⟨hf, by simp, ?_⟩
            intro a ha b hb hab
            rw [List.mem_singleton.mp hb] at hab
            obtain ⟨e, he, hes⟩ := List.mem_map.mp ha
            exact hns (List.mem_map.mpr ⟨e, (List.mem_filter.mp he).1, hes.trans hab⟩)
        · intro e he pid hp
          rcases hsub e he with he | he
          · exact h.back e he pid hp
          · rw [he] at hp; cases hp
        · intro pid p d hp hd
          rcases h.own pid p d hp hd with ⟨e, he, hes, hep⟩ | hx
          · rcases hep with hep | hep
            · by_cases hr : e.seq < r
              · right
                rw [h1]
                exact List.mem_filterMap.mpr ⟨e, List.mem_filter.mpr ⟨he, by simpa using hr⟩, by rw [hep, hes]; rfl⟩
              · exact Or.inl ⟨e, hstay e he hr, hes, Or.inl hep⟩
            · rw [hz] at hep; cases hep
          · cases hx
        · intro hz'
          have hz' : (c.ids.newDcid cid seq token rpt).2.2.zeroLenDcid = true := hz'
          rw [hzl, hz] at hz'
          cases hz'
        · intro x hx
          dsimp only at hx ⊢
          rw [h1] at hx
          obtain ⟨e, he, hex⟩ := List.mem_filterMap.mp hx
          cases hep : e.path with
          | none => rw [hep] at hex; cases hex
          | some pid =>
            rw [hep] at hex
            have hex := Option.some.inj hex
            rw [← hex]
            exact h.back e (List.mem_filter.mp he).1 pid hep
  insert {c p pid m n} h hi hd _ _ := by
    refine ⟨h.nodup, ?_, ?_, h.zero, h.share⟩
    · intro e he q hq
      dsimp only
      by_cases hqp : q = pid
      · exact ⟨p, by rw [hqp]; exact hi.self⟩
      · rw [hi.other q hqp]; exact h.back e he q hq
    · intro q r d hq hrd
      have hq : m.get q = some r := hq
      by_cases hqp : q = pid
      · rw [hqp, hi.self] at hq; cases hq; rw [hd] at hrd; cases hrd
      · rw [hi.other q hqp] at hq; exact h.own q r d hq hrd
  client {c p pid m n k} h hi hd _ _ hav := by
    have hk : n ∈ keys c.ids.dcids.inner := by
      split at hav
      · rename_i hz; cases hav; rw [h.zero hz]; exact List.mem_cons_self
      · exact lowest_keys hav
    obtain ⟨e, he, hl⟩ := linkDcid_ok hk pid
    obtain ⟨hem, hes⟩ := Cid.find_seq_some he
    have hself : ({ e with path := some pid } : Entry) ∈ Deque.put c.ids.dcids.inner { e with path := some pid } :=
      mem_put_self (by dsimp only; rw [hes]; exact hk)
    rw [hl]
    refine ⟨by dsimp only; rw [Cid.keys_put]; exact h.nodup, ?_, ?_, fun hz => by dsimp only at hz ⊢; rw [Cid.keys_put]; exact h.zero hz, h.share⟩
    · intro x hx q hq
      dsimp only
      by_cases hqp : q = pid
      · exact ⟨p, by rw [hqp]; exact hi.self⟩
      · rw [hi.other q hqp]
        rcases mem_put_or hx with hx | hx
        · subst hx
          have hq : some pid = some q := hq
          cases hq
          exact absurd rfl hqp
        · exact h.back x hx q hq
    · intro q r d hq hrd
      have hq : m.get q = some r := hq
      by_cases hqp : q = pid
      · rw [hqp, hi.self] at hq
        cases hq
        rw [hd] at hrd
        cases hrd
        exact Or.inl ⟨_, hself, hes, Or.inl (by rw [hqp])⟩
      · rw [hi.other q hqp] at hq
        rcases h.own q r d hq hrd with ⟨x, hx, hxs, hxp⟩ | hx
        · left
          by_cases hxe : x.seq = e.seq
          · refine ⟨_, hself, hxe.symm.trans hxs, ?_⟩
            cases hz : c.ids.zeroLenDcid with
            | true => exact Or.inr rfl
            | false =>
              exfalso
              rw [hz] at hav hxp
              have hxe' : x = e := Cid.eq_of_seq h.nodup hx hem hxe
              obtain ⟨e', he', hs', hp'⟩ := lowestAvailable_mem hav
              have hee : e' = e := Cid.eq_of_seq h.nodup he' hem (hs'.trans hes.symm)
              rcases hxp with hxp | hxp
              · rw [hxe', ← hee, hp'] at hxp; cases hxp
              · cases hxp
          · exact ⟨x, mem_put_other hx hxe, hxs, hxp⟩
        · cases hx
  clientKeys h hz := by rw [h.zero hz]; exact List.mem_cons_self
  act {l c pid p} h _ _ _ := h.rel (SameD.setActive c.paths pid)
  migrated {l c pid} h _ hs := by
    have hn := h.share hs
    unfold Conn.onPeerMigrated
    split
    · exact h
    · split
      · exact h
      · have h1 : Own (c.setActive pid).2 := h.rel (SameD.setActive c.paths pid)
        split
        · rename_i heq; rw [heq] at h1; exact h1
        · rename_i c1 heq
          have hn1 : c1.noReuse = true := by
            have := congrArg (fun r => r.2.noReuse) heq
            dsimp only at this
            rw [← this]
            exact hn
          rw [heq] at h1
          unfold Conn.reuseDcid
          split
          · exact h1
          · rw [if_neg (by rw [hn1]; simp)]
            exact h1

/-- Retiring a connection ID, unless too many are to be retired. -/
theorem own_retireDcid (h : Own c) (seq : Nat) (hr : (c.retireDcid seq).1 ≠ .error .idLimit) : Own (c.retireDcid seq).2 := by
  unfold Conn.retireDcid at hr ⊢
  split
  · exact h
  rename_i hz
  rw [if_neg hz] at hr
  split
  · exact h
  rename_i active ha
  rw [ha] at hr
  dsimp only at hr
  split
  · exact h
  rename_i hc
  rw [if_neg hc] at hr
  have hz : c.ids.zeroLenDcid = false := by simpa using hz
  have key : (∃ e ids, c.ids.retireDcid seq = (.error e, ids) ∧ (e = .idLimit ∨ ids.dcids.inner = c.ids.dcids.inner) ∧ ids.zeroLenDcid = c.ids.zeroLenDcid) ∨
      ∃ e ids, c.ids.retireDcid seq = (.ok e.path, ids) ∧ e ∈ c.ids.dcids.inner ∧ e.seq = seq ∧
        ids.dcids.inner = Deque.del c.ids.dcids.inner seq ∧ ids.zeroLenDcid = c.ids.zeroLenDcid := by
    unfold Ids.retireDcid
    rw [if_neg (by rw [hz]; decide)]
    unfold Deque.remove
    split
    · rename_i heq
      split at heq
      · cases heq; exact Or.inl ⟨_, _, rfl, Or.inr rfl, rfl⟩
      · cases heq
    · rename_i heq
      split at heq
      · cases heq
      · cases hg : c.ids.dcids.get seq with
        | some e => rw [hg] at heq; cases heq
        | none =>
          rw [hg] at heq
          cases heq
          exact Or.inl ⟨_, _, rfl, Or.inr (Cid.del_of_not_mem (Cid.find_seq_none.mp hg)), rfl⟩
    · rename_i heq
      split at heq
      · cases heq
      · rename_i e d _
        have hge : c.ids.dcids.get seq = some e ∧ d = { c.ids.dcids with inner := Deque.del c.ids.dcids.inner seq } := by
          have heq := Except.ok.inj heq
          exact ⟨congrArg Prod.fst heq, (congrArg Prod.snd heq).symm⟩
        obtain ⟨hem, hes⟩ := Cid.find_seq_some hge.1
        unfold Ids.markRetire
        simp only [if_true]
        cases hins : c.ids.retire.insert seq with
        | error x =>
          left
          refine ⟨x, _, rfl, Or.inl ?_, rfl⟩
          unfold Cid.SeqSet.insert at hins
          split at hins
          · cases hins; rfl
          · cases hins
        | ok r => exact Or.inr ⟨e, _, rfl, hem, hes, by rw [hge.2], rfl⟩
  rcases key with ⟨e, ids, hk, hd, hzl⟩ | ⟨e, ids, hk, hem, hes, hd, hzl⟩
  · rw [hk] at hr ⊢
    dsimp only at hr ⊢
    rcases hd with hd | hd
    · exact absurd (by rw [hd]) hr
    · exact ⟨by dsimp only; rw [hd]; exact h.nodup, by dsimp only; rw [hd]; exact h.back, by dsimp only; rw [hd, hzl]; exact h.own,
        by dsimp only; rw [hd, hzl]; exact h.zero, h.share⟩
  · rw [hk]
    have hmem : ∀ x, x ∈ ids.dcids.inner ↔ x ∈ c.ids.dcids.inner ∧ x.seq ≠ seq := by
      intro x; rw [hd]; exact Cid.mem_del h.nodup
    have h1 : OwnL { c with ids := ids } (e.path.elim [] fun pid => [(seq, pid)]) := by
      refine ⟨?_, ?_, ?_, ?_, h.share⟩
      · dsimp only
        rw [hd]
        exact h.nodup.sublist ((Cid.del_sublist _ _).map _)
      · intro x hx pid hp
        exact h.back x ((hmem x).mp hx).1 pid hp
      · intro pid p d hp hpd
        rcases h.own pid p d hp hpd with ⟨x, hx, hxs, hxp⟩ | hx
        · by_cases hds : x.seq = seq
          · right
            have : x = e := Cid.eq_of_seq h.nodup hx hem (hds.trans hes.symm)
            rcases hxp with hxp | hxp
            · rw [this] at hxp
              rw [hxp, ← hds, hxs]
              exact List.mem_cons_self
            · rw [hz] at hxp; cases hxp
          · exact Or.inl ⟨x, (hmem x).mpr ⟨hx, hds⟩, hxs, by dsimp only; rw [hzl]; exact hxp⟩
        · cases hx
      · intro hz'
        have hz' : ids.zeroLenDcid = true := hz'
        rw [hzl, hz] at hz'
        cases hz'
    cases hp : e.path with
    | none =>
      dsimp only
      rw [hp] at h1
      exact h1
    | some pid =>
      dsimp only
      rw [hp] at h1
      obtain ⟨p, hpp⟩ := h.back e hem pid hp
      unfold Conn.replaceDcid
      have hpp' : ({ c with ids := ids } : Conn).paths.get pid = some p := hpp
      rw [hpp']
      dsimp only
      split
      · refine (h1.clear pid).weaken fun x hx => ?_
        obtain ⟨hx, hne⟩ := List.mem_filter.mp hx
        rw [List.mem_singleton.mp hx] at hne
        simp at hne
      · rename_i n hn
        have h2 := h1.link (c := { c with ids := ids }) hn hpp'
        obtain ⟨e', he', hlk⟩ := linkDcid_ok (lowest_keys hn) pid
        dsimp only at h2
        rw [hlk] at h2 ⊢
        refine h2.weaken fun x hx => ?_
        obtain ⟨hx, hne⟩ := List.mem_filter.mp hx
        rw [List.mem_singleton.mp hx] at hne
        simp at hne

/-- The destination connection ID of each path is stored. -/
structure Stored (c : Conn) : Prop where
  own : ∀ pid p d, c.paths.get pid = some p → p.dcid = some d → d ∈ keys c.ids.dcids.inner
  zero : c.ids.zeroLenDcid = true → 0 ∈ keys c.ids.dcids.inner
  kept : ∀ k ∈ c.kept, ∀ f ∈ k.frames, NoRetire f

theorem Stored.rel (h : Stored c) {m : PathMap} (hr : Rel SameD c.paths m) : Stored { c with paths := m } := by
  refine ⟨?_, h.zero, h.kept⟩
  intro pid q d hq hd
  obtain ⟨p, hp, hpq⟩ := hr.bwd pid q hq
  exact h.own pid p d hp (hpq ▸ hd)

/-- One path takes a stored connection ID. -/
theorem Stored.set (h : Stored c) {ids : Ids} (hi : keys ids.dcids.inner = keys c.ids.dcids.inner) (hz : ids.zeroLenDcid = c.ids.zeroLenDcid)
    {pid n : Nat} (hn : n ∈ keys c.ids.dcids.inner) :
    Stored { c with ids := ids, paths := c.paths.upd pid fun p => { p with dcid := some n } } := by
  refine ⟨?_, by dsimp only; rw [hi, hz]; exact h.zero, h.kept⟩
  intro q r d hq hd
  have hq : (c.paths.upd pid fun p => { p with dcid := some n }).get q = some r := hq
  dsimp only
  rw [hi]
  rw [PathMap.get_upd] at hq
  split at hq
  · cases hg : c.paths.get q with
    | none => rw [hg] at hq; cases hq
    | some x => rw [hg] at hq; cases hq; cases hd; exact hn
  · exact h.own q r d hq hd

theorem linkDcid_keys {ids : Ids} {n : Nat} (h : n ∈ keys ids.dcids.inner) (pid : Nat) :
    keys (ids.linkDcid n pid).2.dcids.inner = keys ids.dcids.inner ∧ (ids.linkDcid n pid).2.zeroLenDcid = ids.zeroLenDcid := by
  obtain ⟨e, _, hl⟩ := linkDcid_ok h pid
  rw [hl]
  exact ⟨Cid.keys_put _ _, rfl⟩

/-- Without retirement the connection IDs stored stay, and no path is told anything. -/
theorem newDcid_keeps (s : Ids) (cid : Bytes) (seq token rpt : Nat) (h : rpt = 0) :
    (s.newDcid cid seq token rpt).2.1 = [] ∧ ∀ e ∈ s.dcids.inner, e ∈ (s.newDcid cid seq token rpt).2.2.dcids.inner := by
  rcases newDcid_inner s cid seq token rpt with ⟨h1, h2⟩ | ⟨r, hr, _, h1, h2⟩
  · exact ⟨h1, fun e he => by rw [h2]; exact he⟩
  · have hr := hr h
    subst hr
    have hnil : s.dcids.inner.filter (fun e => decide (e.seq < 0)) = [] := by
      rw [List.filter_eq_nil_iff]; intro e _; simp
    have hall : s.dcids.inner.filter (fun e => !decide (e.seq < 0)) = s.dcids.inner := by
      rw [List.filter_eq_self]; intro e _; simp
    rw [hall] at h2
    refine ⟨by rw [h1, hnil]; rfl, fun e he => ?_⟩
    rcases h2 with h2 | ⟨t, h2⟩
    · rw [h2]; exact he
    · rw [h2]; exact List.mem_append_left _ he

theorem onNewCid_keeps (c : Conn) (cid : Bytes) (seq token rpt : Nat) (h : rpt = 0) :
    ∃ ids, (c.onNewCid cid seq token rpt).2 = { c with ids := ids } ∧ ids.zeroLenDcid = c.ids.zeroLenDcid ∧
      ∀ n ∈ keys c.ids.dcids.inner, n ∈ keys ids.dcids.inner := by
  cases hz : c.ids.zeroLenDcid with
  | true => refine ⟨c.ids, ?_, hz, fun n hn => hn⟩; unfold Conn.onNewCid; rw [hz]; rfl
  | false =>
    obtain ⟨h1, h2⟩ := newDcid_keeps c.ids cid seq token rpt h
    refine ⟨(c.ids.newDcid cid seq token rpt).2.2, ?_, (newDcid_zeroLen ..).trans hz, ?_⟩
    · rw [onNewCid_snd c cid seq token rpt hz, h1]; rfl
    · intro n hn
      obtain ⟨e, he, hes⟩ := List.mem_map.mp hn
      exact List.mem_map.mpr ⟨e, h2 e he, hes⟩

theorem stored_walk : Walk (fun _ c => Stored c) NoRetire where
  sub _ h := h
  active h _ := h
  kept h := h.kept
  soft h hr := h.rel (hr.mono fun _ _ h => h.1)
  rest {l c c'} h hp hd hz _ _ _ hk := by
    refine ⟨by rw [hp, hd]; exact h.own, by rw [hz, hd]; exact h.zero, ?_⟩
    intro k hk' f hf
    rcases hk k hk' with hk | hk
    · exact h.kept k hk f hf
    · exact hk f hf
  zero {l c pid p} h hz _ _ := h.set (ids := c.ids) rfl rfl (h.zero hz)
  link {l c pid p n} h hn _ _ := by
    obtain ⟨h1, h2⟩ := linkDcid_keys (lowest_keys hn) pid
    exact h.set h1 h2 (lowest_keys hn)
  newCid {l c} cid seq token rpt h hW := by
    obtain ⟨ids, h1, h2, h3⟩ := onNewCid_keeps c cid seq token rpt (hW _ _ _ _ rfl)
    rw [h1]
    exact ⟨fun pid p d hp hd => h3 d (h.own pid p d hp hd), fun hz => h3 0 (h.zero (h2 ▸ hz)), h.kept⟩
  insert {c p pid m n} h hi hd _ _ := by
    refine ⟨?_, h.zero, h.kept⟩
    intro q r d hq hrd
    have hq : m.get q = some r := hq
    by_cases hqp : q = pid
    · rw [hqp, hi.self] at hq; cases hq; rw [hd] at hrd; cases hrd
    · rw [hi.other q hqp] at hq; exact h.own q r d hq hrd
  client {c p pid m n k} h hi hd _ _ hav := by
    have hk : n ∈ keys c.ids.dcids.inner := by
      split at hav
      · rename_i hz; cases hav; exact h.zero hz
      · exact lowest_keys hav
    obtain ⟨h1, h2⟩ := linkDcid_keys hk pid
    refine ⟨?_, by dsimp only; rw [h1, h2]; exact h.zero, h.kept⟩
    intro q r d hq hrd
    have hq : m.get q = some r := hq
    dsimp only
    rw [h1]
    by_cases hqp : q = pid
    · rw [hqp, hi.self] at hq; cases hq; rw [hd] at hrd; cases hrd; exact hk
    · rw [hi.other q hqp] at hq; exact h.own q r d hq hrd
  clientKeys h hz := h.zero hz
  act {l c pid p} h _ _ _ := h.rel (SameD.setActive c.paths pid)
  migrated {l c pid} h _ _ := by
    unfold Conn.onPeerMigrated
    split
    · exact h
    · rename_i old _
      split
      · exact h
      · have h1 : Stored (c.setActive pid).2 := h.rel (SameD.setActive c.paths pid)
        split
        · rename_i heq; rw [heq] at h1; exact h1
        · rename_i c1 heq
          rw [heq] at h1
          unfold Conn.reuseDcid
          split
          · exact h1
          · split
            · split
              · exact h1
              · rename_i q hq
                refine ⟨?_, h1.zero, h1.kept⟩
                intro i r d hr hd
                have hr : (c1.paths.upd pid fun p => { p with dcid := q.dcid }).get i = some r := hr
                rw [PathMap.get_upd] at hr
                split at hr
                · cases hg : c1.paths.get i with
                  | none => rw [hg] at hr; cases hr
                  | some x => rw [hg] at hr; cases hr; exact h1.own old q d hq hd
                · exact h1.own i r d hr hd
            · exact h1

end Verif.Path
