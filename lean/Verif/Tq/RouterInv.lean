import Verif.Tq.Router

/-! The invariant of the router and its connections. -/

namespace Verif.Tq
open Verif

namespace Router

/-- What the map will be when the router has worked off the queue. -/
def fin (s : Router) : CMap := s.map.final s.queue

structure Inv (s : Router) : Prop where
  good : Good s.map s.queue
  agree : ∀ k c c', s.map k = some c → s.fin k = some c' → c = c'
  known : Known s.used s.map s.queue
  own : ∀ c w, s.live c = some w → ∀ x ∈ w.ids, s.fin (key x) = some c
  back : ∀ k c, s.fin k = some c → ∃ w, s.live c = some w ∧ ∃ x ∈ w.ids, key x = k
  nodup : ∀ c w, s.live c = some w → w.ids.Nodup
  idsUsed : ∀ c w, s.live c = some w → ∀ x ∈ w.ids, x ∈ s.used

theorem inv_init : Inv {} := by
  constructor <;> simp [fin, CMap.final, Good, Known, live]

theorem live_iff {s : Router} {c : Nat} {w : Worker} : s.live c = some w ↔ s.conns[c]? = some w ∧ w.running = true := by
  simp only [live, Option.filter_eq_some_iff]

theorem live_lt {s : Router} {c : Nat} {w : Worker} (h : s.live c = some w) : c < s.conns.length := by
  have := (live_iff.mp h).1
  exact (List.getElem?_eq_some_iff.mp this).1

/-- After the update of one connection. -/
theorem live_set {conns : List Worker} {c d : Nat} {w w' : Worker} (h : conns[c]? = some w) :
    (conns.set c w')[d]?.filter (·.running) = if d = c then (if w'.running then some w' else none) else conns[d]?.filter (·.running) := by
  have hc : c < conns.length := (List.getElem?_eq_some_iff.mp h).1
  rw [List.getElem?_set]
  by_cases e : c = d
  · subst e
    cases hr : w'.running <;> simp [hc, hr]
  · simp [e, Ne.symm e]

theorem live_snoc {conns : List Worker} {d : Nat} {w' : Worker} (hr : w'.running = true) :
    (conns ++ [w'])[d]?.filter (·.running) = if d = conns.length then some w' else conns[d]?.filter (·.running) := by
  by_cases e : d = conns.length
  · subst e; simp [hr]
  · rw [if_neg e]
    by_cases h : d < conns.length
    · rw [List.getElem?_append_left h]
    · rw [List.getElem?_eq_none (by simp; omega), List.getElem?_eq_none (by omega)]

/-- Two running connections have no ID in common. -/
theorem Inv.disj {s : Router} (h : s.Inv) {c d : Nat} {w v : Worker} (hc : s.live c = some w) (hd : s.live d = some v) {x : Bytes} (hx : x ∈ w.ids)
    (hy : x ∈ v.ids) : c = d := by
  have h1 := h.own c w hc x hx
  have h2 := h.own d v hd x hy
  rw [h1] at h2
  injection h2

theorem inv_handle {s : Router} (h : s.Inv) : (s.step .handle).Inv := by
  simp only [step]
  split
  · exact h
  · rename_i a q hq
    have hg := h.good
    have hf : s.fin = (s.map.apply a).final q := by rw [fin, hq]; rfl
    rw [hq] at hg
    have hk := h.known
    rw [hq] at hk
    have hfin : Router.fin { s with map := s.map.apply a, queue := q } = s.fin := hf.symm
    constructor
    · cases a; exact hg.2.2; exact hg.2
    · intro k c c' h1 h2
      rw [hfin] at h2
      cases a with
      | mapCid e n =>
        obtain ⟨⟨c0, h3, h4⟩, h5, -⟩ := hg
        replace h1 : s.map.apply (.mapCid e n) k = some c := h1
        rw [apply_map h3] at h1
        simp only [CMap.put] at h1
        split at h1
        · rename_i hkn
          injection h1 with h1
          subst hkn h1
          rw [hf] at h2
          exact (h4 _ h2).symm
        · exact h.agree k c c' h1 h2
      | unmapCid x =>
        simp only [CMap.apply, CMap.unmapCid] at h1
        split at h1
        · simp at h1
        · exact h.agree k c c' h1 h2
    · refine ⟨fun k hs => ?_, fun e n hm => hk.2.1 e n (.tail _ hm), fun x hm => hk.2.2 x (.tail _ hm)⟩
      cases a with
      | mapCid e n =>
        obtain ⟨⟨c0, h3, h4⟩, h5, -⟩ := hg
        replace hs : (s.map.apply (.mapCid e n) k).isSome := hs
        rw [apply_map h3] at hs
        simp only [CMap.put] at hs
        split at hs
        · rename_i hkn; exact ⟨n, hk.2.1 e n (.head _), hkn.symm⟩
        · exact hk.1 k hs
      | unmapCid x =>
        simp only [CMap.apply, CMap.unmapCid] at hs
        split at hs
        · simp at hs
        · exact hk.1 k hs
    · rw [hfin]; exact h.own
    · rw [hfin]; exact h.back
    · exact h.nodup
    · exact h.idsUsed

/-- The queue does not touch an ID that is not in the map and that it does not put there. -/
theorem untouched {s : Router} (h : s.Inv) {p : Bytes} (hm : s.map (key p) = none) (hq : ∀ e, Cmd.mapCid e p ∉ s.queue) :
    (∀ e n, Cmd.mapCid e n ∈ s.queue → key n ≠ key p ∧ key e ≠ key p) ∧ (∀ x, Cmd.unmapCid x ∈ s.queue → key x ≠ key p) := by
  have hn : ∀ e n, Cmd.mapCid e n ∈ s.queue → key n ≠ key p := by
    intro e n hmem he
    rw [key_inj he] at hmem
    exact hq e hmem
  obtain ⟨t1, t2⟩ := good_touch h.good
  refine ⟨fun e n hmem => ⟨hn e n hmem, fun he => ?_⟩, fun x hmem he => ?_⟩
  · rcases t1 e n hmem with h1 | ⟨e', n', h1, h2⟩
    · rw [he, hm] at h1; simp at h1
    · exact hn e' n' h1 (h2.trans he)
  · rcases t2 x hmem with h1 | ⟨e', n', h1, h2⟩
    · rw [he, hm] at h1; simp at h1
    · exact hn e' n' h1 (h2.trans he)

theorem unused {s : Router} (h : s.Inv) {x : Bytes} (hx : x ∉ s.used) : s.map (key x) = none ∧ ∀ e, Cmd.mapCid e x ∉ s.queue := by
  refine ⟨?_, fun e hm => hx (h.known.2.1 e x hm)⟩
  cases hm : s.map (key x) with
  | none => rfl
  | some c =>
    obtain ⟨y, hy, e⟩ := h.known.1 (key x) (by simp [hm])
    rw [key_inj e] at hy
    exact absurd hy hx

theorem fin_none {s : Router} (h : s.Inv) {p : Bytes} (hm : s.map (key p) = none) (hq : ∀ e, Cmd.mapCid e p ∉ s.queue) : s.fin (key p) = none := by
  obtain ⟨t1, t2⟩ := untouched h hm hq
  rw [fin, final_other (fun e n hh => (t1 e n hh).1) t2, hm]

/-- A connection with one ID. -/
theorem inv_spawn1 {s : Router} (h : s.Inv) {x : Bytes} (hm : s.map (key x) = none) (hq : ∀ e, Cmd.mapCid e x ∉ s.queue) :
    Inv { s with map := s.map.put (key x) s.conns.length, conns := s.conns ++ [{ cur := [x] }], used := x :: s.used } := by
  obtain ⟨t1, t2⟩ := untouched h hm hq
  have hf : Router.fin { s with map := s.map.put (key x) s.conns.length, conns := s.conns ++ [{ cur := [x] }], used := x :: s.used } =
      s.fin.put (key x) s.conns.length := final_put t1 t2
  have hl : ∀ c, Router.live { s with map := s.map.put (key x) s.conns.length, conns := s.conns ++ [{ cur := [x] }], used := x :: s.used } c =
      if c = s.conns.length then some { cur := [x] } else s.live c := fun c => live_snoc rfl
  have hn := fin_none h hm hq
  constructor
  · exact good_put h.good t1 t2
  · intro k c c' h1 h2
    rw [hf] at h2
    simp only [CMap.put] at h1 h2
    split at h1
    · rename_i e; rw [if_pos e] at h2; injection h1 with h1; injection h2 with h2; omega
    · rename_i e; rw [if_neg e] at h2; exact h.agree _ _ _ h1 h2
  · refine ⟨fun k hs => ?_, fun e n hh => .tail _ (h.known.2.1 e n hh), fun y hh => .tail _ (h.known.2.2 y hh)⟩
    simp only [CMap.put] at hs
    split at hs
    · rename_i e; exact ⟨x, .head _, e.symm⟩
    · obtain ⟨y, hy, e⟩ := h.known.1 k hs
      exact ⟨y, .tail _ hy, e⟩
  · intro c w hw y hy
    rw [hl] at hw
    rw [hf]
    split at hw
    · rename_i e
      injection hw with hw
      subst hw e
      simp [Worker.ids] at hy
      simp [hy, CMap.put]
    · have ho := h.own c w hw y hy
      simp only [CMap.put]
      rw [if_neg]
      · exact ho
      · intro e; rw [e, hn] at ho; simp at ho
  · intro k c hk
    rw [hf] at hk
    simp only [CMap.put] at hk
    simp only [hl]
    split at hk
    · rename_i e
      injection hk with hk
      subst hk
      exact ⟨{ cur := [x] }, by simp, x, by simp [Worker.ids], e.symm⟩
    · obtain ⟨w, hw, r⟩ := h.back k c hk
      have := live_lt hw
      exact ⟨w, by rw [if_neg (by omega)]; exact hw, r⟩
  · intro c w hw
    rw [hl] at hw
    split at hw
    · injection hw with hw; subst hw; simp [Worker.ids]
    · exact h.nodup c w hw
  · intro c w hw y hy
    rw [hl] at hw
    split at hw
    · injection hw with hw; subst hw; simp [Worker.ids] at hy; subst hy; exact .head _
    · exact .tail _ (h.idsUsed c w hw y hy)

/-- A second ID, entered at once. -/
theorem inv_pending {s : Router} (h : s.Inv) {c : Nat} {w : Worker} (hw : s.live c = some w) (hp : w.pending = none) {p : Bytes}
    (hm : s.map (key p) = none) (hq : ∀ e, Cmd.mapCid e p ∉ s.queue) :
    Inv { s with map := s.map.put (key p) c, conns := s.conns.set c { w with pending := some p }, used := p :: s.used } := by
  obtain ⟨t1, t2⟩ := untouched h hm hq
  have hwr := (live_iff.mp hw).2
  have hf : Router.fin { s with map := s.map.put (key p) c, conns := s.conns.set c { w with pending := some p }, used := p :: s.used } =
      s.fin.put (key p) c := final_put t1 t2
  have hl : ∀ d, Router.live { s with map := s.map.put (key p) c, conns := s.conns.set c { w with pending := some p }, used := p :: s.used } d =
      if d = c then some { w with pending := some p } else s.live d := fun d => by
    have := live_set (d := d) (w' := { w with pending := some p }) (live_iff.mp hw).1
    rw [if_pos (show Worker.running { w with pending := some p } = true from hwr)] at this
    exact this
  have hn := fin_none h hm hq
  have hids : ∀ y, y ∈ Worker.ids { w with pending := some p } ↔ y ∈ w.ids ∨ y = p := by
    intro y; simp [Worker.ids, hp, or_assoc]
  have hnot : p ∉ w.ids := fun hin => by rw [h.own c w hw p hin] at hn; simp at hn
  constructor
  · exact good_put h.good t1 t2
  · intro k d d' h1 h2
    rw [hf] at h2
    simp only [CMap.put] at h1 h2
    split at h1
    · rename_i e; rw [if_pos e] at h2; injection h1 with h1; injection h2 with h2; omega
    · rename_i e; rw [if_neg e] at h2; exact h.agree _ _ _ h1 h2
  · refine ⟨fun k hs => ?_, fun e n hh => .tail _ (h.known.2.1 e n hh), fun y hh => .tail _ (h.known.2.2 y hh)⟩
    simp only [CMap.put] at hs
    split at hs
    · rename_i e; exact ⟨p, .head _, e.symm⟩
    · obtain ⟨y, hy, e⟩ := h.known.1 k hs
      exact ⟨y, .tail _ hy, e⟩
  · intro d v hv y hy
    rw [hl] at hv
    rw [hf]
    split at hv
    · rename_i e
      injection hv with hv
      subst hv e
      rcases (hids y).mp hy with hy | rfl
      · have ho := h.own d w hw y hy
        simp only [CMap.put]
        split
        · rfl
        · exact ho
      · simp [CMap.put]
    · have ho := h.own d v hv y hy
      simp only [CMap.put]
      rw [if_neg]
      · exact ho
      · intro e; rw [e, hn] at ho; simp at ho
  · intro k d hk
    rw [hf] at hk
    simp only [CMap.put] at hk
    simp only [hl]
    split at hk
    · rename_i e
      injection hk with hk
      subst hk
      exact ⟨{ w with pending := some p }, by simp, p, (hids p).mpr (.inr rfl), e.symm⟩
    · obtain ⟨v, hv, y, hy, r⟩ := h.back k d hk
      by_cases e : d = c
      · subst e
        rw [hw] at hv
        injection hv with hv
        subst hv
        exact ⟨{ w with pending := some p }, by simp, y, (hids y).mpr (.inl hy), r⟩
      · exact ⟨v, by rw [if_neg e]; exact hv, y, hy, r⟩
  · intro d v hv
    rw [hl] at hv
    split at hv
    · injection hv with hv
      subst hv
      have := h.nodup c w hw
      simp only [Worker.ids, hp, Option.toList, List.append_nil] at this hnot ⊢
      rw [List.nodup_append]
      refine ⟨this, by simp, fun a ha b hb => ?_⟩
      simp only [List.mem_singleton] at hb
      subst hb
      exact fun e => hnot (e ▸ ha)
    · exact h.nodup d v hv
  · intro d v hv y hy
    rw [hl] at hv
    split at hv
    · injection hv with hv
      subst hv
      rcases (hids y).mp hy with hy | rfl
      · exact .tail _ (h.idsUsed c w hw y hy)
      · exact .head _
    · exact .tail _ (h.idsUsed d v hv y hy)

theorem set_snoc (l : List Worker) (a b : Worker) : (l ++ [a]).set l.length b = l ++ [b] := by
  induction l with
  | nil => rfl
  | cons x t ih => simp

theorem inv_spawn {s : Router} (h : s.Inv) {scid : Bytes} {p : Option Bytes} (hok : s.Ok (.spawn scid p)) : (s.step (.spawn scid p)).Inv := by
  obtain ⟨h1, h2, h3⟩ := hok
  obtain ⟨h4, h5⟩ := unused h h1
  have b := inv_spawn1 h h4 h5
  cases p with
  | none => exact b
  | some p =>
    simp only [step]
    split
    · exact h
    · rename_i hp
      have hp' : s.map (key p) = none := by simpa using hp
      have hne : key p ≠ key scid := fun e => h2 (by rw [key_inj e])
      have := inv_pending b (c := s.conns.length) (w := { cur := [scid] }) (p := p) (by simp [live]) rfl (by simp [CMap.put, hne, hp']) (fun e => h3 e p rfl)
      simp only [set_snoc] at this
      have em : (s.map.put (key scid) s.conns.length).mapCid scid p = (s.map.put (key scid) s.conns.length).put (key p) s.conns.length :=
        apply_map (by simp [CMap.put])
      rw [em]
      exact this

theorem inv_issue {s : Router} (h : s.Inv) {c i : Nat} {cid : Bytes} (hok : s.Ok (.issue c i cid)) : (s.step (.issue c i cid)).Inv := by
  simp only [step]
  split
  · exact h
  rename_i w hw
  split
  · exact h
  rename_i e he
  have hwr := (live_iff.mp hw).2
  obtain ⟨hm, hq⟩ := unused h hok
  have hn := fin_none h hm hq
  have hec : e ∈ w.ids := by
    have := List.mem_of_getElem? he
    simp [Worker.ids, this]
  have hfe := h.own c w hw e hec
  have hf : Router.fin { s with queue := s.queue ++ [.mapCid e cid], conns := s.conns.set c { w with cur := w.cur ++ [cid] }, used := cid :: s.used } =
      s.fin.put (key cid) c := by
    show s.map.final (s.queue ++ [.mapCid e cid]) = _
    rw [final_append]
    exact apply_map hfe
  have hl : ∀ d, Router.live { s with queue := s.queue ++ [.mapCid e cid], conns := s.conns.set c { w with cur := w.cur ++ [cid] }, used := cid :: s.used } d =
      if d = c then some { w with cur := w.cur ++ [cid] } else s.live d := fun d => by
    have := live_set (d := d) (w' := { w with cur := w.cur ++ [cid] }) (live_iff.mp hw).1
    rw [if_pos (show Worker.running { w with cur := w.cur ++ [cid] } = true from hwr)] at this
    exact this
  have hids : ∀ y, y ∈ Worker.ids { w with cur := w.cur ++ [cid] } ↔ y ∈ w.ids ∨ y = cid := by
    intro y; simp only [Worker.ids, List.mem_append, List.mem_singleton]
    constructor
    · rintro (((h | h) | h) | h) <;> simp [h]
    · rintro (((h | h) | h) | h) <;> simp [h]
  have hnot : cid ∉ w.ids := fun hin => by rw [h.own c w hw cid hin] at hn; simp at hn
  constructor
  · refine good_append h.good ⟨⟨c, hfe, fun c' h' => ?_⟩, hn, trivial⟩ ?_
    · replace h' : s.fin.apply (.mapCid e cid) (key cid) = some c' := h'
      rw [apply_map hfe] at h'
      simp [CMap.put] at h'
      exact h'.symm
    · intro e1 n1 hh e' hin
      injection hh with _ hh
      subst hh
      exact hq e' hin
  · intro k d d' h1 h2
    rw [hf] at h2
    simp only [CMap.put] at h2
    split at h2
    · rename_i hk
      replace h1 : s.map k = some d := h1
      rw [hk, hm] at h1
      simp at h1
    · exact h.agree _ _ _ h1 h2
  · refine ⟨fun k hs => ?_, fun e1 n hh => ?_, fun y hh => ?_⟩
    · obtain ⟨y, hy, r⟩ := h.known.1 k hs
      exact ⟨y, .tail _ hy, r⟩
    · simp only [List.mem_append, List.mem_singleton] at hh
      rcases hh with hh | hh
      · exact .tail _ (h.known.2.1 e1 n hh)
      · injection hh with _ hh; subst hh; exact .head _
    · simp only [List.mem_append, List.mem_singleton] at hh
      rcases hh with hh | hh
      · exact .tail _ (h.known.2.2 y hh)
      · cases hh
  · intro d v hv y hy
    rw [hl] at hv
    rw [hf]
    split at hv
    · rename_i ed
      injection hv with hv
      subst hv ed
      rcases (hids y).mp hy with hy | rfl
      · have ho := h.own d w hw y hy
        simp only [CMap.put]
        split
        · rfl
        · exact ho
      · simp [CMap.put]
    · have ho := h.own d v hv y hy
      simp only [CMap.put]
      rw [if_neg]
      · exact ho
      · intro ee; rw [ee, hn] at ho; simp at ho
  · intro k d hk
    rw [hf] at hk
    simp only [CMap.put] at hk
    simp only [hl]
    split at hk
    · rename_i ek
      injection hk with hk
      subst hk
      exact ⟨{ w with cur := w.cur ++ [cid] }, by simp, cid, (hids cid).mpr (.inr rfl), ek.symm⟩
    · obtain ⟨v, hv, y, hy, r⟩ := h.back k d hk
      by_cases ed : d = c
      · subst ed
        rw [hw] at hv
        injection hv with hv
        subst hv
        exact ⟨{ w with cur := w.cur ++ [cid] }, by simp, y, (hids y).mpr (.inl hy), r⟩
      · exact ⟨v, by rw [if_neg ed]; exact hv, y, hy, r⟩
  · intro d v hv
    rw [hl] at hv
    split at hv
    · injection hv with hv
      subst hv
      have hnd := h.nodup c w hw
      have hp : List.Perm (Worker.ids { w with cur := w.cur ++ [cid] }) (cid :: w.ids) := by
        simp only [Worker.ids, List.append_assoc, List.singleton_append]
        exact List.perm_middle
      rw [hp.nodup_iff]
      exact List.nodup_cons.mpr ⟨hnot, hnd⟩
    · exact h.nodup d v hv
  · intro d v hv y hy
    rw [hl] at hv
    split at hv
    · injection hv with hv
      subst hv
      rcases (hids y).mp hy with hy | rfl
      · exact .tail _ (h.idsUsed c w hw y hy)
      · exact .head _
    · exact .tail _ (h.idsUsed d v hv y hy)

/-- Only the order of a connection's IDs changes. -/
theorem inv_perm {s : Router} (h : s.Inv) {c : Nat} {w w' : Worker} (hw : s.live c = some w) (hr : w'.running = true) (hp : List.Perm w'.ids w.ids) :
    Inv { s with conns := s.conns.set c w' } := by
  have hl : ∀ d, Router.live { s with conns := s.conns.set c w' } d = if d = c then some w' else s.live d := fun d => by
    have := live_set (d := d) (w' := w') (live_iff.mp hw).1
    simp only [hr, if_true] at this
    exact this
  have key' : ∀ d v, Router.live { s with conns := s.conns.set c w' } d = some v → ∃ v', s.live d = some v' ∧ List.Perm v.ids v'.ids := by
    intro d v hv
    rw [hl] at hv
    split at hv
    · rename_i e; injection hv with hv; subst hv e; exact ⟨w, hw, hp⟩
    · exact ⟨v, hv, .refl _⟩
  refine ⟨h.good, h.agree, h.known, ?_, ?_, ?_, ?_⟩
  · intro d v hv y hy
    obtain ⟨v', h1, h2⟩ := key' d v hv
    exact h.own d v' h1 y (h2.mem_iff.mp hy)
  · intro k d hk
    obtain ⟨v, hv, y, hy, r⟩ := h.back k d hk
    simp only [hl]
    by_cases e : d = c
    · subst e
      rw [hw] at hv
      injection hv with hv
      subst hv
      exact ⟨w', by simp, y, hp.mem_iff.mpr hy, r⟩
    · exact ⟨v, by rw [if_neg e]; exact hv, y, hy, r⟩
  · intro d v hv
    obtain ⟨v', h1, h2⟩ := key' d v hv
    exact h2.nodup_iff.mpr (h.nodup d v' h1)
  · intro d v hv y hy
    obtain ⟨v', h1, h2⟩ := key' d v hv
    exact h.idsUsed d v' h1 y (h2.mem_iff.mp hy)

theorem perm_erase : ∀ {l : List Bytes} {i : Nat} {e : Bytes}, l[i]? = some e → List.Perm (e :: l.eraseIdx i) l
  | [], i, e, h => by simp at h
  | a :: l, 0, e, h => by simp at h; subst h; exact .refl _
  | a :: l, i + 1, e, h => by
    simp only [List.getElem?_cons_succ] at h
    exact (List.Perm.swap a e _).trans ((perm_erase h).cons a)

theorem inv_retire {s : Router} (h : s.Inv) (c i : Nat) : (s.step (.retire c i)).Inv := by
  simp only [step]
  split
  · exact h
  rename_i w hw
  split
  · exact h
  split
  · exact h
  rename_i e he
  refine inv_perm h hw (live_iff.mp hw).2 ?_
  simp only [Worker.ids]
  refine List.Perm.append_right _ ?_
  have h1 : List.Perm (w.cur.eraseIdx i ++ (w.gone ++ [e])) ((e :: w.cur.eraseIdx i) ++ w.gone) := by
    rw [← List.append_assoc]
    exact List.perm_append_singleton e _
  exact h1.trans ((perm_erase he).append_right _)

/-- IDs given up: the router is told about them. -/
theorem inv_drop {s : Router} (h : s.Inv) {c : Nat} {w w' : Worker} (hw : s.live c = some w) (l : List Bytes)
    (hp : List.Perm w.ids (l ++ if w'.running then w'.ids else [])) :
    Inv { s with queue := s.queue ++ l.map .unmapCid, conns := s.conns.set c w' } := by
  have hnd := h.nodup c w hw
  rw [hp.nodup_iff] at hnd
  have hl : ∀ d, Router.live { s with queue := s.queue ++ l.map .unmapCid, conns := s.conns.set c w' } d =
      if d = c then (if w'.running then some w' else none) else s.live d := fun d => live_set (live_iff.mp hw).1
  have hlw : ∀ x ∈ l, x ∈ w.ids := fun x hx => hp.mem_iff.mpr (by simp [hx])
  -- the map in the end
  have hdel : ∀ (m : CMap) (l : List Bytes), ∀ k, m.final (l.map .unmapCid) k = if k ∈ l.map key then none else m k := by
    intro m l
    induction l generalizing m with
    | nil => simp [CMap.final]
    | cons x l ih =>
      intro k
      simp only [List.map_cons, CMap.final, ih, CMap.apply, CMap.unmapCid, List.mem_cons]
      by_cases e1 : k ∈ l.map key <;> by_cases e2 : k = key x <;> simp [e1, e2]
  have hf : ∀ k, Router.fin { s with queue := s.queue ++ l.map .unmapCid, conns := s.conns.set c w' } k = if k ∈ l.map key then none else s.fin k := by
    intro k
    show s.map.final (s.queue ++ l.map .unmapCid) k = _
    rw [final_append]
    exact hdel _ _ _
  have hgood : ∀ (l : List Bytes) (m : CMap) (q : List Cmd), Good m q → l.Nodup → (∀ x ∈ l, (m.final q (key x)).isSome) → Good m (q ++ l.map .unmapCid) := by
    intro l
    induction l with
    | nil => intro m q hg _ _; simpa using hg
    | cons x l ih =>
      intro m q hg hn hs
      have e : q ++ (x :: l).map Cmd.unmapCid = (q ++ [.unmapCid x]) ++ l.map .unmapCid := by simp
      rw [e]
      refine ih m _ (good_append hg ⟨hs x (by simp), trivial⟩ (fun _ _ hh => by cases hh)) (List.nodup_cons.mp hn).2 (fun y hy => ?_)
      rw [final_append]
      have hne : key y ≠ key x := fun ee => (List.nodup_cons.mp hn).1 (key_inj ee ▸ hy)
      simp only [CMap.final, CMap.apply, CMap.unmapCid, hne, if_false]
      exact hs y (by simp [hy])
  have hmem : ∀ {x : Bytes}, key x ∈ l.map key ↔ x ∈ l := by
    intro x
    simp only [List.mem_map]
    constructor
    · rintro ⟨y, hy, e⟩; rw [← key_inj e]; exact hy
    · intro hx; exact ⟨x, hx, rfl⟩
  constructor
  · refine hgood l _ _ h.good (List.nodup_append.mp hnd).1 (fun x hx => ?_)
    have := h.own c w hw x (hlw x hx)
    rw [fin] at this
    simp [this]
  · intro k d d' h1 h2
    rw [hf] at h2
    split at h2
    · simp at h2
    · exact h.agree k d d' h1 h2
  · refine ⟨h.known.1, fun e n hh => ?_, fun y hh => ?_⟩
    · simp only [List.mem_append, List.mem_map] at hh
      rcases hh with hh | ⟨_, _, hh⟩
      · exact h.known.2.1 e n hh
      · cases hh
    · simp only [List.mem_append, List.mem_map] at hh
      rcases hh with hh | ⟨z, hz, hh⟩
      · exact h.known.2.2 y hh
      · injection hh with hh; subst hh; exact h.idsUsed c w hw z (hlw z hz)
  · intro d v hv y hy
    rw [hl] at hv
    rw [hf]
    split at hv
    · rename_i e
      split at hv
      · rename_i hr
        injection hv with hv
        subst hv e
        rw [if_pos hr] at hp hnd
        rw [if_neg, h.own d w hw y (hp.mem_iff.mpr (by simp [hy]))]
        rw [hmem]
        intro hin
        exact (List.nodup_append.mp hnd).2.2 y hin y hy rfl
      · cases hv
    · rename_i hne
      rw [if_neg, h.own d v hv y hy]
      rw [hmem]
      intro hin
      exact hne (h.disj hv hw hy (hlw y hin))
  · intro k d hk
    rw [hf] at hk
    split at hk
    · simp at hk
    rename_i hnk
    obtain ⟨v, hv, y, hy, r⟩ := h.back k d hk
    simp only [hl]
    by_cases e : d = c
    · subst e
      rw [hw] at hv
      injection hv with hv
      subst hv
      have := hp.mem_iff.mp hy
      rw [List.mem_append] at this
      rcases this with hin | hin
      · exact absurd (r ▸ hmem.mpr hin) hnk
      · split at hin
        · rename_i hr
          exact ⟨w', by simp [hr], y, hin, r⟩
        · cases hin
    · exact ⟨v, by rw [if_neg e]; exact hv, y, hy, r⟩
  · intro d v hv
    rw [hl] at hv
    split at hv
    · split at hv
      · rename_i hr
        injection hv with hv
        subst hv
        rw [if_pos hr] at hnd
        exact (List.nodup_append.mp hnd).2.1
      · cases hv
    · exact h.nodup d v hv
  · intro d v hv y hy
    rw [hl] at hv
    split at hv
    · split at hv
      · rename_i hr
        injection hv with hv
        subst hv
        rw [if_pos hr] at hp
        exact h.idsUsed c w hw y (hp.mem_iff.mpr (by simp [hy]))
      · cases hv
    · exact h.idsUsed d v hv y hy

theorem inv_sweep {s : Router} (h : s.Inv) (c : Nat) : (s.step (.sweep c)).Inv := by
  simp only [step]
  split
  · exact h
  rename_i w hw
  split
  · exact h
  rename_i e l hg
  have hwr := (live_iff.mp hw).2
  refine inv_drop h hw (w' := { w with gone := l }) [e] ?_
  simp only [hwr, if_true, Worker.ids, hg, List.append_assoc, List.cons_append, List.singleton_append, List.nil_append]
  exact List.perm_middle

theorem inv_established {s : Router} (h : s.Inv) (c : Nat) : (s.step (.established c)).Inv := by
  simp only [step]
  split
  · exact h
  rename_i w hw
  split
  · exact h
  rename_i p hg
  have hwr := (live_iff.mp hw).2
  refine inv_drop h hw (w' := { w with pending := none }) [p] ?_
  simp only [hwr, if_true, Worker.ids, hg, Option.toList, List.append_nil]
  exact (List.perm_append_comm (l₁ := w.cur ++ w.gone) (l₂ := [p]))

theorem inv_close {s : Router} (h : s.Inv) (c : Nat) : (s.step (.close c)).Inv := by
  simp only [step]
  split
  · exact h
  rename_i w hw
  refine inv_drop h hw (w' := { w with running := false }) _ ?_
  simp only [Worker.ids, Bool.false_eq_true, if_false, List.append_nil]
  refine List.perm_append_comm.trans ?_
  rw [List.append_assoc]
  exact List.perm_append_comm.append_left _

theorem inv_step {s : Router} (h : s.Inv) {op : ROp} (hok : s.Ok op) : (s.step op).Inv := by
  cases op with
  | spawn scid p => exact inv_spawn h hok
  | handle => exact inv_handle h
  | issue c i cid => exact inv_issue h hok
  | retire c i => exact inv_retire h c i
  | sweep c => exact inv_sweep h c
  | established c => exact inv_established h c
  | close c => exact inv_close h c

theorem inv_run {s : Router} (h : s.Inv) {l : List ROp} (hok : s.OkRun l) : (s.run l).Inv := by
  induction l generalizing s with
  | nil => exact h
  | cons op l ih => exact ih (inv_step h hok.1) hok.2

/-! ### Working off the queue -/

theorem drain_eq (s : Router) : s.run (List.replicate s.queue.length .handle) = { s with map := s.fin, queue := [] } := by
  obtain ⟨m, q, w, u⟩ := s
  induction q generalizing m with
  | nil => rfl
  | cons c q ih =>
    simp only [List.length_cons, List.replicate_succ, run, step]
    rw [ih]
    rfl

end Router
end Verif.Tq

namespace Verif.Tq.Router
open Verif

/-- An ID that is about to be forgotten stays forgotten. -/
def Keep (s : Router) : Prop := ∀ x, Cmd.unmapCid x ∈ s.queue → s.fin (key x) = none

theorem keep_init : Keep {} := by intro x hx; cases hx

theorem keep_step {s : Router} (h : s.Inv) (hk : s.Keep) {op : ROp} (hok : s.Ok op) : (s.step op).Keep := by
  -- commands to forget, at the end of the queue
  have del : ∀ (m : CMap) (l : List Bytes), ∀ k, m.final (l.map .unmapCid) k = if k ∈ l.map key then none else m k := by
    intro m l
    induction l generalizing m with
    | nil => simp [CMap.final]
    | cons x l ih =>
      intro k
      simp only [List.map_cons, CMap.final, ih, CMap.apply, CMap.unmapCid, List.mem_cons]
      by_cases e1 : k ∈ l.map key <;> by_cases e2 : k = key x <;> simp [e1, e2]
  have dels : ∀ (l : List Bytes) (ws : List Worker), Keep { s with queue := s.queue ++ l.map .unmapCid, conns := ws } := by
    intro l ws x hx
    show s.map.final (s.queue ++ l.map .unmapCid) (key x) = none
    rw [final_append, del]
    split
    · rfl
    · rename_i hn
      simp only [List.mem_append, List.mem_map] at hx
      rcases hx with hx | ⟨y, hy, e⟩
      · exact hk x hx
      · injection e with e
        subst e
        exact absurd (List.mem_map.mpr ⟨y, hy, rfl⟩) hn
  cases op with
  | spawn scid p =>
    obtain ⟨h1, h2, h3⟩ := hok
    obtain ⟨h4, h5⟩ := unused h h1
    obtain ⟨t1, t2⟩ := untouched h h4 h5
    cases p with
    | none =>
      intro x hx
      show (s.map.put (key scid) s.conns.length).final s.queue (key x) = none
      rw [final_put t1 t2]
      have := t2 x hx
      simp only [CMap.put, this, if_false]
      exact hk x hx
    | some p =>
      simp only [step]
      split
      · exact hk
      · rename_i hp
        have hp' : s.map (key p) = none := by simpa using hp
        obtain ⟨u1, u2⟩ := untouched h hp' (fun e => h3 e p rfl)
        intro x hx
        have em : (s.map.put (key scid) s.conns.length).mapCid scid p = (s.map.put (key scid) s.conns.length).put (key p) s.conns.length :=
          apply_map (by simp [CMap.put])
        show ((s.map.put (key scid) s.conns.length).mapCid scid p).final s.queue (key x) = none
        rw [em, final_put u1 u2, final_put t1 t2]
        have a := t2 x hx
        have b := u2 x hx
        simp only [CMap.put, a, b, if_false]
        exact hk x hx
  | handle =>
    simp only [step]
    split
    · exact hk
    · rename_i a q hq
      intro x hx
      have := hk x (by rw [hq]; exact .tail _ hx)
      rw [fin, hq] at this
      exact this
  | issue c i cid =>
    simp only [step]
    split
    · exact hk
    rename_i w hw
    split
    · exact hk
    rename_i e he
    intro x hx
    have hec : e ∈ w.ids := by
      have := List.mem_of_getElem? he
      simp [Worker.ids, this]
    have hfe := h.own c w hw e hec
    show s.map.final (s.queue ++ [.mapCid e cid]) (key x) = none
    simp only [List.mem_append, List.mem_singleton, reduceCtorEq, or_false] at hx
    have hne : key x ≠ key cid := fun e => hok (key_inj e ▸ h.known.2.2 x hx)
    have e2 : s.map.final (s.queue ++ [.mapCid e cid]) = s.fin.put (key cid) c := by rw [final_append]; exact apply_map hfe
    rw [e2]
    simp only [CMap.put, hne, if_false]
    exact hk x hx
  | retire c i =>
    simp only [step]
    split
    · exact hk
    split
    · exact hk
    split <;> exact hk
  | sweep c =>
    simp only [step]
    split
    · exact hk
    split
    · exact hk
    · exact dels [_] _
  | established c =>
    simp only [step]
    split
    · exact hk
    split
    · exact hk
    · exact dels [_] _
  | close c =>
    simp only [step]
    split
    · exact hk
    · exact dels _ _

theorem keep_run {s : Router} (h : s.Inv) (hk : s.Keep) {l : List ROp} (hok : s.OkRun l) : (s.run l).Keep := by
  induction l generalizing s with
  | nil => exact hk
  | cons op l ih => exact ih (inv_step h hok.1) (keep_step h hk hok.1) hok.2

/-- What the router knows about a live ID it does not forget. -/
theorem stays_step {s : Router} (h : s.Inv) (hk : s.Keep) {op : ROp} (hok : s.Ok op) {c : Nat} {x : Bytes} (hm : s.map (key x) = some c)
    (hf : s.fin (key x) = some c) : (s.step op).map (key x) = some c := by
  cases op with
  | spawn scid p =>
    have hne : key x ≠ key scid := fun e => by
      have := (unused h hok.1).1
      rw [← e, hm] at this
      cases this
    cases p with
    | none => simp [step, CMap.put, hne, hm]
    | some p =>
      simp only [step]
      split
      · exact hm
      · rename_i hp
        have hp' : s.map (key p) = none := by simpa using hp
        have hnp : key x ≠ key p := fun e => by rw [← e, hm] at hp'; cases hp'
        simp [CMap.mapCid, CMap.put, hne, hnp, hm]
  | handle =>
    simp only [step]
    split
    · exact hm
    · rename_i a q hq
      have hg := h.good
      rw [hq] at hg
      cases a with
      | mapCid e n =>
        obtain ⟨⟨c0, h3, -⟩, h5, -⟩ := hg
        have hne : key x ≠ key n := fun e => by rw [← e, hm] at h5; cases h5
        show s.map.apply (.mapCid e n) (key x) = some c
        rw [apply_map h3]
        simp [CMap.put, hne, hm]
      | unmapCid y =>
        have hne : key x ≠ key y := fun e => by
          have := hk y (by rw [hq]; exact .head _)
          rw [← e, hf] at this
          cases this
        simp [CMap.apply, CMap.unmapCid, hne, hm]
  | issue c i cid => simp only [step]; split; exact hm; split <;> exact hm
  | retire c i => simp only [step]; split; exact hm; split; exact hm; split <;> exact hm
  | sweep c => simp only [step]; split; exact hm; split <;> exact hm
  | established c => simp only [step]; split; exact hm; split <;> exact hm
  | close c => simp only [step]; split <;> exact hm

end Verif.Tq.Router
