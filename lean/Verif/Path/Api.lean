import Verif.Path.Evo

/-!
What timeouts, the calls of the application and sending do to the paths.
-/

namespace Verif.Path
open Verif
open Verif.Cid (Ids Err Entry Deque)

variable {c c' c'' : Conn}

theorem againAmt_recvOne (c : Conn) (h : SameConf c c') (hk : c.earlyKey = true → c'.kept = c.kept) : c'.againAmt = c.againAmt := by
  unfold Conn.againAmt
  rw [h.earlyKey]
  split
  · rename_i hc; rw [h.factor, hk hc]
  · rfl

/-- The changes other than by packets received. -/
structure Quiet (R : Path → Path → Prop) (F : Path → Prop) : Prop where
  refl : ∀ p, R p p
  trans : ∀ p q r, R p q → R q r → R p r
  same : ∀ p q, R p q → SameId p q
  fcomp : ∀ p q, F p → R p q → F q
  dcid : ∀ p o, R p { p with dcid := o }
  act : ∀ p b, R p { p with active := b }
  start : ∀ p, p.state ≠ .validated → R p p.startMigrating
  request : ∀ p, R p p.request
  timeout : ∀ p now rtt s, R p (p.onTimeout now rtt s)
  notified : ∀ p, R p { p with notified := true }
  fresh : ∀ uid l p rm d, F { Path.new uid l p rm false with dcid := d }

variable {R : Path → Path → Prop} {F : Path → Prop}

namespace Quiet

theorem comp (hQ : Quiet R F) (h1 : Moves R F c c') (h2 : Moves R F c' c'') : Moves R F c c'' :=
  h1.comp h2 hQ.trans hQ.fcomp (fun _ h => h) fun p q h => (hQ.same p q h).1

theorem rel (hQ : Quiet R F) (h : Inv c) {m : PathMap} (hr : Rel R c.paths m) : Moves R F c { c with paths := m } :=
  Moves.of_rel h hr hQ.same (h.linked.of_rel hr) ⟨rfl, rfl, rfl, rfl, rfl, hr.maxPaths⟩ rfl

theorem upd (hQ : Quiet R F) (h : Inv c) {pid : Nat} {f : Path → Path} (hf : ∀ p, R p (f p)) : Moves R F c { c with paths := c.paths.upd pid f } :=
  hQ.rel h (Rel.upd hQ.refl fun p _ => hf p)

theorem ids (hQ : Quiet R F) (h : Inv c) {ids : Ids} (hl : Linked c.paths.slots.length ids) : Moves R F c { c with ids := ids } :=
  Moves.of_rel h (Rel.refl hQ.refl _) hQ.same hl ⟨rfl, rfl, rfl, rfl, rfl, rfl⟩ rfl

theorem expire (hQ : Quiet R F) (h : Inv c) (now : Nat) (l : List (Nat × Nat)) : Moves R F c (c.expire now l) := by
  induction l generalizing c with
  | nil => exact Moves.refl hQ.refl h
  | cons x l ih =>
    obtain ⟨pid, rtt⟩ := x
    simp only [Conn.expire]
    have h1 : Moves R F c { c with paths := c.paths.upd pid (·.onTimeout now rtt c.server) } := hQ.upd h fun p => hQ.timeout p now rtt c.server
    exact hQ.comp h1 (ih h1.inv)

theorem get_notifyFailed (m : PathMap) (i : Nat) :
    m.notifyFailed.get i = if PathMap.failing (m.get i) then (m.get i).map fun p => { p with notified := true } else m.get i := by
  unfold PathMap.notifyFailed PathMap.get
  dsimp only
  rw [List.getElem?_map]
  cases m.slots[i]? with
  | none => rfl
  | some s => cases s <;> simp

theorem notifyFailed (hQ : Quiet R F) (m : PathMap) : Rel R m m.notifyFailed := by
  refine ⟨by simp [PathMap.notifyFailed], rfl, rfl, rfl, rfl, ?_, ?_⟩
  · intro i p hp
    rw [get_notifyFailed, hp]
    split
    · exact ⟨_, rfl, hQ.notified p⟩
    · exact ⟨p, rfl, hQ.refl p⟩
  · intro i q hq
    rw [get_notifyFailed] at hq
    split at hq
    · cases hp : m.get i with
      | none => rw [hp] at hq; cases hq
      | some p => rw [hp] at hq; cases hq; exact ⟨p, rfl, hQ.notified p⟩
    · exact ⟨q, hq, hQ.refl q⟩

theorem deactivate (hQ : Quiet R F) (m : PathMap) : Rel R m m.deactivate := by
  unfold PathMap.deactivate
  split
  · exact Rel.refl hQ.refl m
  · exact Rel.upd hQ.refl fun p _ => hQ.act p _

theorem mapSetActive (hQ : Quiet R F) (m : PathMap) (pid : Nat) : Rel R m (m.setActive pid).2 := by
  unfold PathMap.setActive
  dsimp only
  have h := hQ.deactivate m
  split
  · exact h
  · rename_i p hp
    split
    · split
      · exact (h.trans hQ.trans (Rel.upd (pid := pid) hQ.refl fun p _ => hQ.act p true)).trans hQ.trans (Rel.notify hQ.refl _ _)
      · rename_i hv
        refine h.trans hQ.trans (Rel.upd hQ.refl fun q hq => ?_)
        rw [hp] at hq
        cases hq
        exact hQ.start p hv
    · exact h.trans hQ.trans (Rel.upd hQ.refl fun p _ => hQ.act p true)

theorem setActive (hQ : Quiet R F) (h : Inv c) (pid : Nat) : Moves R F c (c.setActive pid).2 := hQ.rel h (hQ.mapSetActive c.paths pid)

theorem fallback (hQ : Quiet R F) (h : Inv c) : Moves R F c c.fallback := by
  have hcl : ∀ {c : Conn}, Inv c → Moves R F c { c with closed := true } := fun h =>
    Moves.of_rel h (Rel.refl hQ.refl _) hQ.same h.linked ⟨rfl, rfl, rfl, rfl, rfl, rfl⟩ rfl
  unfold Conn.fallback
  split
  · exact Moves.refl hQ.refl h
  · split
    · exact hcl h
    · rename_i pid _
      have h1 := hQ.setActive h pid
      split
      · rename_i heq; rw [heq] at h1; exact hQ.comp h1 (hcl h1.inv)
      · rename_i heq; rw [heq] at h1; exact h1

theorem onTimeout (hQ : Quiet R F) (h : Inv c) (now : Nat) (due : List (Nat × Nat)) : Moves R F c (c.onTimeout now due) := by
  unfold Conn.onTimeout
  dsimp only
  have h1 := hQ.expire h now due
  have h2 : Moves R F (c.expire now due) { c.expire now due with paths := (c.expire now due).paths.notifyFailed } :=
    hQ.rel h1.inv (hQ.notifyFailed _)
  exact hQ.comp h1 (hQ.comp h2 (hQ.fallback h2.inv))

theorem createClient (hQ : Quiet R F) (h : Inv c) (a : Nat × Nat) (hn : c.paths.fromAddrs a = none) : Moves R F c (c.createClient a).2 := by
  unfold Conn.createClient
  split
  · exact Moves.refl hQ.refl h
  split
  · exact Moves.refl hQ.refl h
  split
  · exact Moves.refl hQ.refl h
  · rename_i n _
    split
    · exact Moves.refl hQ.refl h
    · rename_i pid m hi
      obtain ⟨hm, hget⟩ := Moves.insert (p := { Path.new c.nextUid a.1 a.2 c.recvMax false with dcid := some n }) (R := R) (F := F) h hQ.refl rfl hn
        (hQ.fresh _ _ _ _ _) hi
      have hl : Linked m.slots.length (c.ids.linkDcid n pid).2 := Linked.linkDcid hm.inv.linked n (PathMap.get_lt hget)
      dsimp only
      split
      · rename_i heq; rw [heq] at hl; exact hQ.comp hm (hQ.ids hm.inv hl)
      · rename_i heq; rw [heq] at hl; exact hQ.comp hm (hQ.ids hm.inv hl)

theorem probePath (hQ : Quiet R F) (h : Inv c) (a : Nat × Nat) : Moves R F c (c.probePath a).2 := by
  have h1 : Moves R F c (c.findOrCreate a).2 := by
    unfold Conn.findOrCreate
    split
    · exact Moves.refl hQ.refl h
    · rename_i hn; exact hQ.createClient h a hn
  unfold Conn.probePath
  split
  · rename_i heq; rw [heq] at h1; exact h1
  · rename_i pid c1 heq
    rw [heq] at h1
    split
    · exact h1
    · dsimp only
      have h2 : Moves R F c1 { c1 with paths := c1.paths.upd pid (·.request) } := hQ.upd h1.inv hQ.request
      split
      · exact hQ.comp h1 h2
      · exact hQ.comp h1 h2

theorem takeDcid (hQ : Quiet R F) (h : Inv c) (pid : Nat) {p : Path} (hp : c.paths.get pid = some p) : Moves R F c (c.takeDcid pid p).2 := by
  unfold Conn.takeDcid
  split
  · exact Moves.refl hQ.refl h
  split
  · exact Moves.refl hQ.refl h
  split
  · exact Moves.refl hQ.refl h
  · rename_i n _
    have hl : Linked c.paths.slots.length (c.ids.linkDcid n pid).2 := Linked.linkDcid h.linked n (PathMap.get_lt hp)
    split
    · rename_i heq; rw [heq] at hl; exact hQ.ids h hl
    · rename_i heq
      rw [heq] at hl
      have h1 := hQ.ids h hl
      exact hQ.comp h1 (hQ.upd h1.inv fun p => hQ.dcid p _)

theorem migrate (hQ : Quiet R F) (h : Inv c) (a : Nat × Nat) : Moves R F c (c.migrate a).2 := by
  unfold Conn.migrate
  split
  · exact Moves.refl hQ.refl h
  split
  · rename_i pid _
    split
    · exact Moves.refl hQ.refl h
    · rename_i p hp
      split
      · exact Moves.refl hQ.refl h
      · have h1 := hQ.takeDcid h pid hp
        split
        · rename_i heq; rw [heq] at h1; exact h1
        · rename_i heq; rw [heq] at h1; exact hQ.comp h1 (hQ.setActive h1.inv pid)
  · rename_i hn
    have h1 := hQ.createClient h a hn
    split
    · rename_i heq; rw [heq] at h1; exact h1
    · rename_i heq; rw [heq] at h1; exact hQ.comp h1 (hQ.setActive h1.inv _)

theorem retireDcid (hQ : Quiet R F) (h : Inv c) (seq : Nat) : Moves R F c (c.retireDcid seq).2 := by
  unfold Conn.retireDcid
  split
  · exact Moves.refl hQ.refl h
  split
  · exact Moves.refl hQ.refl h
  split
  · exact Moves.refl hQ.refl h
  · have hl : Linked c.paths.slots.length (c.ids.retireDcid seq).2 := Linked.retireDcid h.linked seq
    split
    · rename_i heq; rw [heq] at hl; exact hQ.ids h hl
    · rename_i heq; rw [heq] at hl; exact hQ.ids h hl
    · rename_i pid ids heq
      rw [heq] at hl
      have h1 := hQ.ids h hl
      unfold Conn.replaceDcid
      split
      · exact h1
      · rename_i p hp
        split
        · exact hQ.comp h1 (hQ.upd h1.inv fun p => hQ.dcid p _)
        · rename_i n _
          have hl2 : Linked c.paths.slots.length (ids.linkDcid n pid).2 := Linked.linkDcid hl n (PathMap.get_lt hp)
          split
          · rename_i heq2; rw [heq2] at hl2; exact hQ.comp h1 (hQ.ids h1.inv hl2)
          · rename_i heq2
            rw [heq2] at hl2
            have h2 := hQ.ids h1.inv hl2
            exact hQ.comp h1 (hQ.comp h2 (hQ.upd h2.inv fun p => hQ.dcid p _))

end Quiet

/-- What a datagram sent does to its path: the packets in it, in their order. -/
def Path.sentAll (p : Path) (os : List Conn.Out) (now : Nat) : Path := os.foldl (fun p o => Conn.sent p o now) p

theorem upd_upd (m : PathMap) (pid : Nat) (f g : Path → Path) : (m.upd pid f).upd pid g = m.upd pid (fun p => g (f p)) := by
  unfold PathMap.upd
  dsimp only
  rw [List.modify_modify_eq]
  congr 2
  funext s
  cases s <;> rfl

theorem upd_id (m : PathMap) (pid : Nat) : m.upd pid (fun p => p) = m := by
  unfold PathMap.upd
  have : (fun s : Option Path => s.map fun p => p) = id := by funext s; cases s <;> rfl
  have h : m.slots.modify pid (·.map fun p => p) = m.slots := by rw [this]; exact List.modify_id ..
  rw [h]

theorem mem_le_sum {l : List Nat} {n : Nat} (h : n ∈ l) : n ≤ l.sum := by
  induction l with
  | nil => cases h
  | cons x l ih =>
    rw [List.sum_cons]
    rcases List.mem_cons.mp h with h | h
    · omega
    · have := ih h; omega

/-- The loop over the packets of a datagram puts some of them in it, that fit. -/
theorem sendLoop_spec (c : Conn) (pid : Nat) (src dst : Option Nat) (now done left : Nat) (initial : Bool) (pkts : List Conn.Out) :
    ∃ os, os <+: pkts ∧ (c.sendLoop pid src dst now done left initial pkts).2 = { c with paths := c.paths.upd pid (·.sentAll os now) } ∧
      (∀ o ∈ os, 0 < o.size) ∧ (os.map (·.size)).sum ≤ left ∧
      ((∃ o ∈ os, o.short = true) → ∃ x, (c.sendLoop pid src dst now done left initial pkts).1 = .ok x) ∧
      ∀ d l i, (c.sendLoop pid src dst now done left initial pkts).1 = .ok (d, l, i) →
        d = done + (os.map (·.size)).sum ∧ l = left - (os.map (·.size)).sum ∧ i = (initial || os.any (·.initial)) := by
  induction pkts generalizing c done left initial with
  | nil =>
    refine ⟨[], List.prefix_rfl, ?_, ?_, ?_, ?_, ?_⟩
    · simp only [Conn.sendLoop]; show c = { c with paths := c.paths.upd pid fun p => p }; rw [upd_id]
    · simp
    · simp
    · simp
    · intro d l i h
      simp only [Conn.sendLoop] at h
      cases h
      simp
  | cons o l ih =>
    have nothing : ∀ r : Conn.Res (Nat × Nat × Bool), (r.2 = c ∧ ∀ x, r.1 = .ok x → x = (done, left, initial)) →
        ∃ os, os <+: o :: l ∧ r.2 = { c with paths := c.paths.upd pid (·.sentAll os now) } ∧
        (∀ o ∈ os, 0 < o.size) ∧ (os.map (·.size)).sum ≤ left ∧ ((∃ o ∈ os, o.short = true) → ∃ x, r.1 = .ok x) ∧
        ∀ d l i, r.1 = .ok (d, l, i) → d = done + (os.map (·.size)).sum ∧ l = left - (os.map (·.size)).sum ∧ i = (initial || os.any (·.initial)) := by
      intro r hr
      refine ⟨[], List.nil_prefix, ?_, by simp, by simp, by simp, ?_⟩
      · rw [hr.1]; show c = { c with paths := c.paths.upd pid fun p => p }; rw [upd_id]
      · intro d l i h
        have := hr.2 _ h
        cases this
        simp
    simp only [Conn.sendLoop]
    by_cases hl : left = 0
    · rw [if_pos hl]
      exact nothing _ ⟨rfl, fun x hx => by cases hx; rfl⟩
    rw [if_neg hl]
    cases hs : c.sendSingle pid left o now with
    | none => exact nothing _ ⟨rfl, fun x hx => by cases hx; rfl⟩
    | some r =>
      obtain ⟨r1, r2⟩ := r
      have hs2 := hs
      unfold Conn.sendSingle at hs2
      split at hs2
      · cases hs2
      rename_i hsz
      split at hs2
      · cases hs2
        exact nothing _ ⟨rfl, fun x hx => by cases hx⟩
      · rename_i p hp
        split at hs2
        · cases hs2
          exact nothing _ ⟨rfl, fun x hx => by cases hx⟩
        · cases hs2
          dsimp only
          have stop : ∀ r : Conn.Res (Nat × Nat × Bool), (r.2 = { c with paths := c.paths.upd pid (Conn.sent · o now) } ∧
                (∀ x, r.1 = .ok x → x = (done + o.size, left - o.size, initial || o.initial)) ∧ (o.short = true → ∃ x, r.1 = .ok x)) →
              ∃ os, os <+: o :: l ∧ r.2 = { c with paths := c.paths.upd pid (·.sentAll os now) } ∧
              (∀ o ∈ os, 0 < o.size) ∧ (os.map (·.size)).sum ≤ left ∧ ((∃ o ∈ os, o.short = true) → ∃ x, r.1 = .ok x) ∧
              ∀ d l i, r.1 = .ok (d, l, i) →
                d = done + (os.map (·.size)).sum ∧ l = left - (os.map (·.size)).sum ∧ i = (initial || os.any (·.initial)) := by
            intro r hr
            refine ⟨[o], ⟨l, rfl⟩, hr.1, ?_, ?_, ?_, ?_⟩
            · intro x hx; rw [List.mem_singleton.mp hx]; omega
            · simp; omega
            · rintro ⟨x, hx, hsh⟩
              rw [List.mem_singleton.mp hx] at hsh
              exact hr.2.2 hsh
            · intro d l i h
              have := hr.2.1 _ h
              cases this
              simp
          have go : o.short = false → ∃ os, os <+: o :: l ∧
              (Conn.sendLoop { c with paths := c.paths.upd pid (Conn.sent · o now) } pid src dst now (done + o.size) (left - o.size)
                (initial || o.initial) l).2 = { c with paths := c.paths.upd pid (·.sentAll os now) } ∧
              (∀ o ∈ os, 0 < o.size) ∧ (os.map (·.size)).sum ≤ left ∧
              ((∃ o ∈ os, o.short = true) → ∃ x, (Conn.sendLoop { c with paths := c.paths.upd pid (Conn.sent · o now) } pid src dst now
                (done + o.size) (left - o.size) (initial || o.initial) l).1 = .ok x) ∧
              ∀ d l' i, (Conn.sendLoop { c with paths := c.paths.upd pid (Conn.sent · o now) } pid src dst now (done + o.size) (left - o.size)
                (initial || o.initial) l).1 = .ok (d, l', i) →
                d = done + (os.map (·.size)).sum ∧ l' = left - (os.map (·.size)).sum ∧ i = (initial || os.any (·.initial)) := by
            intro hns
            obtain ⟨os, h1, h2, h3, h4, h6, h5⟩ := ih { c with paths := c.paths.upd pid (Conn.sent · o now) } (done + o.size) (left - o.size) (initial || o.initial)
            refine ⟨o :: os, (List.prefix_cons_inj o).mpr h1, ?_, ?_, ?_, ?_, ?_⟩
            · rw [h2]
              dsimp only
              rw [upd_upd]
              rfl
            · intro x hx
              rcases List.mem_cons.mp hx with hx | hx
              · rw [hx]; omega
              · exact h3 x hx
            · simp only [List.map_cons, List.sum_cons]; omega
            · rintro ⟨x, hx, hsh⟩
              rcases List.mem_cons.mp hx with hx | hx
              · rw [hx, hns] at hsh; cases hsh
              · exact h6 ⟨x, hx, hsh⟩
            · intro d l' i h
              obtain ⟨a1, a2, a3⟩ := h5 d l' i h
              simp only [List.map_cons, List.sum_cons, List.any_cons]
              refine ⟨by omega, by omega, by rw [a3, Bool.or_assoc]⟩
          split
          · exact stop _ ⟨rfl, fun x hx => by cases hx; rfl, fun _ => ⟨_, rfl⟩⟩
          · rename_i hns
            have hns : o.short = false := by simpa using hns
            split
            · exact go hns
            · split
              · exact stop _ ⟨rfl, fun x hx => (by cases hx), fun h => by rw [hns] at h; cases h⟩
              · split
                · exact go hns
                · exact stop _ ⟨rfl, fun x hx => by cases hx; rfl, fun _ => ⟨_, rfl⟩⟩

end Verif.Path
