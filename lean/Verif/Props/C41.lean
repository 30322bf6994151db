import Verif.Path.Valid

/-!
C41: a path is validated only by a response to a challenge sent on it.
-/

namespace Verif.Props.C41
open Verif Verif.Path

variable {server verified noReuse : Bool} {a : Nat × Nat} {limit factor recvMax : Nat} {scid dcid : Bytes} {stok dtok : Option Nat}

/-- A datagram with a PATH_RESPONSE frame. -/
def Brings (op : Op) (d : Nat) : Prop :=
  ∃ b len pkts cid fs nw, op = .recv b len pkts ∧ .short cid fs nw ∈ pkts ∧ .response d ∈ fs

/-- A path and a challenge sent on it that is neither answered nor given up. -/
def Outstanding (c : Conn) (uid : Nat) (ch : Chal) : Prop := ∃ i p, c.paths.get i = some p ∧ p.uid = uid ∧ ch ∈ p.inFlight

/-- A datagram sent on path `uid` with a challenge. -/
def Challenges (c : Conn) (op : Op) (uid : Nat) (ch : Chal) : Prop :=
  ∃ src dst outLen now pkts pid total pad p, op = .send src dst outLen now pkts ∧
    (c.send src dst outLen now pkts).1 = some (pid, total, pad) ∧ (c.send src dst outLen now pkts).2.paths.get pid = some p ∧ p.uid = uid ∧
    ∃ o ∈ pkts, o.short = true ∧ o.chal = some ch.data ∧ o.size = ch.size ∧ ch.size ≤ total

theorem snocInd {α : Type} {P : List α → Prop} (nil : P []) (snoc : ∀ l x, P l → P (l ++ [x])) (l : List α) : P l := by
  have : ∀ l : List α, P l.reverse := by
    intro l
    induction l with
    | nil => exact nil
    | cons x l ih => rw [List.reverse_cons]; exact snoc _ _ ih
  have := this l.reverse
  rwa [List.reverse_reverse] at this

/-- What an operation does to a path. -/
theorem step_path {c : Conn} (h : Inv c) (op : Op) (i : Nat) (q : Path) (hq : (c.step op).paths.get i = some q) :
    (∃ p, c.paths.get i = some p ∧ Vrel (Brings op) (Challenges c op) p q) ∨ (c.nextUid ≤ q.uid ∧
      (∀ ch ∈ q.inFlight, Challenges c op q.uid ch) ∧ q.maxChal < minInitial ∧ q.state ≠ .validated) := by
  have weaken : ∀ {D : Nat → Prop} {c' : Conn}, (∀ d, D d → Brings op d) → Moves (Vrel D noSend) Fresh c c' → c'.paths.get i = some q →
      (∃ p, c.paths.get i = some p ∧ Vrel (Brings op) (Challenges c op) p q) ∨ (c.nextUid ≤ q.uid ∧
      (∀ ch ∈ q.inFlight, Challenges c op q.uid ch) ∧ q.maxChal < minInitial ∧ q.state ≠ .validated) := by
    intro D c' hD hm hq
    rcases hm.back i q hq with ⟨p, hp, r⟩ | ⟨hu, hf⟩
    · exact Or.inl ⟨p, hp, r.mono hD fun _ _ h => h.elim⟩
    · exact Or.inr ⟨hu, (by rw [hf.flight]; intro ch hc; cases hc), hf.size, hf.state⟩
  have same : c.paths.get i = some q → (∃ p, c.paths.get i = some p ∧ Vrel (Brings op) (Challenges c op) p q) ∨ (c.nextUid ≤ q.uid ∧
      (∀ ch ∈ q.inFlight, Challenges c op q.uid ch) ∧ q.maxChal < minInitial ∧ q.state ≠ .validated) :=
    fun h => Or.inl ⟨q, h, Vrel.refl q⟩
  cases op with
  | recv b len pkts =>
    refine weaken (D := Brings (.recv b len pkts)) (fun _ h => h) (Vrel.fam.recv h ?_ fun _ _ => trivial) hq
    intro pkt hp d hd
    cases pkt with
    | short cid fs nw => exact ⟨b, len, pkts, cid, fs, nw, rfl, hp, hd⟩
    | long | early => cases hd
  | send src dst outLen now pkts =>
    have hf := Vrel.fam (D := noResp) |>.flush h
    simp only [Conn.step] at hq
    rcases send_spec c src dst outLen now pkts with ⟨h1, _⟩ | ⟨pid, p, os, _, hp, hpre, h1, _, _, hok, h5⟩
    · rw [h1] at hq
      exact weaken (fun _ h => h.elim) hf hq
    · have hq2 := hq
      rw [h1] at hq2
      have hq2 : (c.flush.paths.upd pid (·.sentAll os now)).get i = some q := hq2
      rw [PathMap.get_upd] at hq2
      split at hq2
      · rename_i hpi
        subst hpi
        rw [hp] at hq2
        have hq2 : p.sentAll os now = q := Option.some.inj hq2
        obtain ⟨s1, s2, s3⟩ := sentAll_same p os now
        have hid := SameId.sentAll p os now
        rw [hq2] at s1 s2 s3 hid
        have hnew : ∀ ch ∈ q.inFlight, ch ∈ p.inFlight ∨ Challenges c (.send src dst outLen now pkts) q.uid ch := by
          intro ch hc
          rcases s1 ch hc with h | ⟨o, ho, a1, a2, a3, a4⟩
          · exact Or.inl h
          · right
            obtain ⟨⟨pid', total, pad⟩, hr⟩ := hok ⟨o, ho, a1⟩
            have hr' := h5 _ hr
            cases hr'
            have := mem_le_sum (List.mem_map.mpr ⟨o, ho, rfl⟩ : o.size ∈ os.map (·.size))
            exact ⟨src, dst, outLen, now, pkts, _, _, _, q, rfl, hr, hq, rfl, o, hpre.subset ho, a1, a2, a3.symm, by omega⟩
        have hv : Vrel noResp (Challenges c (.send src dst outLen now pkts)) p q :=
          ⟨hid, fun ch hc => hid.1 ▸ hnew ch hc, fun h => Or.inl (s2 ▸ h), by omega, fun h => Or.inl (s3 h)⟩
        rcases hf.back pid p hp with ⟨p0, hp0, r⟩ | ⟨hu, hfr⟩
        · exact Or.inl ⟨p0, hp0, (r.trans hv).mono (fun _ h => h.elim) fun _ _ h => h⟩
        · refine Or.inr ⟨by rw [hid.1]; exact hu, fun ch hc => ?_, by rw [s2]; exact hfr.size, fun h => hfr.state (s3 h)⟩
          refine (hnew ch hc).resolve_left fun h => ?_
          rw [hfr.flight] at h
          cases h
      · exact weaken (fun _ h => h.elim) hf hq2
  | timeout now due => exact weaken (D := noResp) (fun _ h => h.elim) (Vrel.quiets.onTimeout h now due) hq
  | probe b => exact weaken (D := noResp) (fun _ h => h.elim) (Vrel.quiets.probePath h b) hq
  | migrate b => exact weaken (D := noResp) (fun _ h => h.elim) (Vrel.quiets.migrate h b) hq
  | retireDcid seq => exact weaken (D := noResp) (fun _ h => h.elim) (Vrel.quiets.retireDcid h seq) hq
  | newScid | setLimit | establish | earlyKey | takeNew | takeRetire | lostNew | lostRetire | close => exact same hq

/-- A challenge outstanding on a path was sent on it, in a packet of that size. -/
theorem outstanding (ops : List Op) (uid : Nat) (ch : Chal) :
    let c0 := Conn.start server verified a limit factor recvMax noReuse scid dcid stok dtok
    Outstanding (c0.run ops) uid ch → ∃ pre op post, ops = pre ++ op :: post ∧ Challenges (c0.run pre) op uid ch := by
  intro c0
  have h0 : Inv c0 := start_inv ..
  induction ops using snocInd with
  | nil =>
    rintro ⟨i, p, hp, _, hc⟩
    cases i with
    | zero => cases hp; cases hc
    | succ n => cases hp
  | snoc ops op ih =>
    rintro ⟨i, q, hq, hu, hc⟩
    rw [Conn.run_snoc] at hq
    rcases step_path (run_inv h0 ops) op i q hq with ⟨p, hp, r⟩ | ⟨_, hf, _⟩
    · rcases r.flight ch hc with h | h
      · obtain ⟨pre, op', post, h1, h2⟩ := ih ⟨i, p, hp, r.id.1 ▸ hu, h⟩
        exact ⟨pre, op', post ++ [op], by rw [h1]; simp, h2⟩
      · rw [← r.id.1, hu] at h
        exact ⟨ops, op, [], rfl, h⟩
    · have h := hf ch hc
      rw [hu] at h
      exact ⟨ops, op, [], rfl, h⟩

/-- A path that becomes validated receives a response to a challenge outstanding on it
just then. -/
theorem becomes (ops : List Op) (op : Op) (i : Nat) (q : Path) :
    let c := (Conn.start server verified a limit factor recvMax noReuse scid dcid stok dtok).run ops
    (c.step op).paths.get i = some q → q.state = .validated →
    ∃ p, c.paths.get i = some p ∧ p.uid = q.uid ∧
      (p.state = .validated ∨ ∃ ch, Outstanding c q.uid ch ∧ Brings op ch.data) := by
  intro c hq hv
  have h : Inv c := run_inv (start_inv ..) ops
  rcases step_path h op i q hq with ⟨p, hp, r⟩ | ⟨_, _, _, hf⟩
  · refine ⟨p, hp, r.id.1.symm, ?_⟩
    rcases r.valid hv with h | ⟨⟨ch, hc, hd⟩, _⟩
    · exact Or.inl h
    · exact Or.inr ⟨ch, ⟨i, p, hp, r.id.1.symm, hc⟩, hd⟩
  · exact absurd hv hf

/-- A path that is validated, other than that of the handshake, has received a response to
a challenge outstanding on it that was sent in a packet of at least 1200 bytes. -/
theorem validated (ops : List Op) (i : Nat) (q : Path) :
    let c0 := Conn.start server verified a limit factor recvMax noReuse scid dcid stok dtok
    (c0.run ops).paths.get i = some q → q.state = .validated → q.uid ≠ 0 →
    ∃ pre op post ch, ops = pre ++ op :: post ∧ Outstanding (c0.run pre) q.uid ch ∧ Brings op ch.data ∧ 1200 ≤ ch.size := by
  intro c0 hq hv hu
  have h0 : Inv c0 := start_inv ..
  have key : ∀ ops i q, (c0.run ops).paths.get i = some q → (minInitial ≤ q.maxChal →
      ∃ pre op post ch, ops = pre ++ op :: post ∧ Outstanding (c0.run pre) q.uid ch ∧ Brings op ch.data ∧ 1200 ≤ ch.size) ∧
      (q.state = .validated → q.uid = 0 ∨ minInitial ≤ q.maxChal) := by
    intro ops
    induction ops using snocInd with
    | nil =>
      intro i q hq
      cases i with
      | zero => cases hq; exact ⟨fun h => absurd h (by show ¬ 1200 ≤ 0; omega), fun _ => Or.inl rfl⟩
      | succ n => cases hq
    | snoc ops op ih =>
      intro i q hq
      rw [Conn.run_snoc] at hq
      rcases step_path (run_inv h0 ops) op i q hq with ⟨p, hp, r⟩ | ⟨_, _, hf, hf'⟩
      · obtain ⟨i1, i2⟩ := ih i p hp
        refine ⟨fun hs => ?_, fun hs => ?_⟩
        · rcases r.size hs with h | ⟨ch, hc, hd, hm⟩
          · obtain ⟨pre, op', post, ch, h1, h2⟩ := i1 h
            rw [← r.id.1] at h2
            exact ⟨pre, op', post ++ [op], ch, by rw [h1]; simp, h2⟩
          · exact ⟨ops, op, [], ch, rfl, ⟨i, p, hp, r.id.1.symm, hc⟩, hd, hm⟩
        · rcases r.valid hs with h | ⟨_, hm⟩
          · rcases i2 h with h | h
            · exact Or.inl (r.id.1.trans h)
            · exact Or.inr (Nat.le_trans h r.grow)
          · exact Or.inr hm
      · exact ⟨fun h => absurd hf (Nat.not_lt.mpr h), fun h => absurd h hf'⟩
  obtain ⟨h1, h2⟩ := key ops i q hq
  exact h1 ((h2 hv).resolve_left hu)

/-- A response that answers no outstanding challenge changes nothing. -/
theorem unsolicited (c : Conn) (pid : Nat) (cid : Bytes) (d : Nat) (h : ∀ i p ch, c.paths.get i = some p → ch ∈ p.inFlight → ch.data ≠ d) :
    (c.onFrame pid cid (.response d)).2 = c := by
  simp only [Conn.onFrame]
  split
  · rfl
  · rename_i m hm
    unfold PathMap.onResponse at hm
    split at hm
    · cases hm
    · split at hm
      · cases hm; rfl
      · rename_i k hk
        obtain ⟨p, hp, hpend⟩ := PathMap.find_some hk
        obtain ⟨ch, hc, hcd⟩ := List.any_eq_true.mp hpend
        exact absurd (by simpa using hcd) (h k p ch hp hc)

/-- A response is of use once: the path that it was for has no such challenge any more. -/
theorem once (c : Conn) (pid : Nat) (cid : Bytes) (d i : Nat) (p q : Path) (hfirst : c.paths.find (·.pending d) = some i)
    (hok : (c.onFrame pid cid (.response d)).1 = .ok ()) (hq : (c.onFrame pid cid (.response d)).2.paths.get i = some q)
    (hp : c.paths.get i = some p) : ∀ ch, ch ∈ q.inFlight ↔ ch ∈ p.inFlight ∧ ch.data ≠ d := by
  simp only [Conn.onFrame] at hok hq
  have hans : q.inFlight = (p.onResponse d).2.inFlight := by
    split at hok
    · cases hok
    · rename_i m hm
      rw [hm] at hq
      have hq : m.get i = some q := hq
      unfold PathMap.onResponse at hm
      split at hm
      · cases hm
      · rw [hfirst] at hm
        dsimp only at hm
        rw [hp] at hm
        dsimp only at hm
        have hm := Except.ok.inj hm
        rw [← hm] at hq
        split at hq
        · unfold PathMap.announce at hq
          dsimp only at hq
          have hq : (((c.paths.upd i fun p => (p.onResponse d).2).upd i fun p => { p with migrating := false })).get i = some q := by
            split at hq
            · exact hq
            · exact hq
          rw [PathMap.get_upd, if_pos rfl, PathMap.get_upd, if_pos rfl, hp] at hq
          cases hq
          rfl
        · rw [PathMap.get_upd, if_pos rfl, hp] at hq
          cases hq
          rfl
  intro ch
  rw [hans, (onResponse_cases p d).1, answer_inFlight, List.mem_filter]
  simp

/-- A server: a client moves to another address; the server challenges it there with a
small packet, then, after the first response, with a large one. -/
def moving : List Op :=
  [.establish, .recv (1, 3) 600 [.short [1] [.newCid [3] 1 9 0, .other] true], .send none none 1200 5 [⟨false, true, 600, 0, some 77⟩],
   .recv (1, 3) 500 [.short [1] [.response 77] true], .send none none 1200 6 [⟨false, true, 1200, 0, some 88⟩],
   .recv (1, 3) 500 [.short [1] [.response 88] true]]

/-- The paths of that server after some operations. -/
def view (ops : List Op) : List (Option (Nat × PState × Bool × List Nat)) :=
  ((Conn.start true true (1, 2) 2 3 3 false [1] [2] none none).run ops).paths.slots.map
    (·.map fun p => (p.uid, p.state, p.active, p.inFlight.map (·.data)))

example :
    view (moving.take 2) = [some (0, .validated, false, []), some (1, .unknown, true, [])] ∧
    view (moving.take 3) = [some (0, .validated, false, []), some (1, .validating, true, [77])] ∧
    view (moving.take 4) = [some (0, .validated, false, []), some (1, .validatingMtu, true, [])] ∧
    view (moving.take 6) = [some (0, .validated, false, []), some (1, .validated, true, [])] := ⟨rfl, rfl, rfl, rfl⟩

/-- Neither a wrong nor a repeated response validates. -/
example :
    view (moving.take 3 ++ [.recv (1, 3) 500 [.short [1] [.response 78] true]]) =
      [some (0, .validated, false, []), some (1, .validating, true, [77])] ∧
    view (moving.take 5 ++ [.recv (1, 3) 500 [.short [1] [.response 77] true]]) =
      [some (0, .validated, false, []), some (1, .validatingMtu, true, [88])] := ⟨rfl, rfl⟩

end Verif.Props.C41
