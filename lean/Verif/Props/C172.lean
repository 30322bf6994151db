import Verif.Small.Coalesce

/-!
C172: packets in one datagram, and 0-RTT packets that come before their key. A packet is
processed at most once, and only if it opens with the key of its type. At most ten 0-RTT packets
are kept, none once the handshake is complete or, on an open connection, once the key is known;
those kept are processed in the order of their arrival right after the datagram that brings the
key. Whether a packet is processed must not depend on the ones before it in its datagram
(RFC 9000, 12.2): this is false.
-/

namespace Verif.Props.C172
open Verif.Coalesce

/-! ### Reading one part of a datagram -/

/-- The packets in a datagram. -/
def packets (l : List Item) : List Pkt :=
  l.filterMap fun i => match i.body with
    | .pkt p => some p
    | .junk => none

/-- What holds at all times; `R` are the packets received so far. -/
structure Ok (s : St) (R : List Pkt) : Prop where
  same : ∀ k, k ∈ s.seen ↔ k ∈ s.log.map Pkt.key
  once : (s.log.map Pkt.key).Nodup
  auth : ∀ p ∈ s.log, p.auth = true
  fine : ∀ p ∈ s.log, p.bad = none
  got : ∀ p ∈ s.log ++ s.kept, p ∈ R
  early : ∀ p ∈ s.kept, p.ty = .early
  few : s.kept.length ≤ maxKept
  est : s.established = true → s.kept = []

theorem Ok.mono {s : St} {R R' : List Pkt} (h : Ok s R) (hr : ∀ p ∈ R, p ∈ R') : Ok s R' :=
  { h with got := fun p hp => hr p (h.got p hp) }

theorem Ok.closed {s : St} {R : List Pkt} (h : Ok s R) (b : Bool) : Ok { s with closed := b } R :=
  ⟨h.same, h.once, h.auth, h.fine, h.got, h.early, h.few, h.est⟩

theorem Ok.fewer {s : St} {R : List Pkt} (h : Ok s R) {k : List Pkt} (hk : k.Sublist s.kept)
    (he : s.established = true → k = []) : Ok { s with kept := k } R where
  same := h.same
  once := h.once
  auth := h.auth
  fine := h.fine
  got p hp := by
    rcases List.mem_append.mp hp with hp | hp
    · exact h.got p (List.mem_append.mpr (Or.inl hp))
    · exact h.got p (List.mem_append.mpr (Or.inr (hk.subset hp)))
  early p hp := h.early p (hk.subset hp)
  few := Nat.le_trans hk.length_le h.few
  est := he

theorem Ok.tls {s : St} {R : List Pkt} (h : Ok s R) (g d : List Ty) (c : Bool) :
    Ok (s.tls g d c) R where
  same := h.same
  once := h.once
  auth := h.auth
  fine := h.fine
  got p hp := by
    apply h.got
    rcases List.mem_append.mp hp with hp | hp
    · exact List.mem_append.mpr (Or.inl hp)
    · cases c
      · exact List.mem_append.mpr (Or.inr hp)
      · cases hp
  early p hp := by
    cases c
    · exact h.early p hp
    · cases hp
  few := by
    cases c
    · exact h.few
    · exact Nat.zero_le _
  est he := by
    cases c
    · apply h.est; simpa [St.tls] using he
    · rfl

theorem Ok.process {s : St} {R : List Pkt} (h : Ok s R) {p : Pkt} (hp : p ∈ R)
    (ha : p.auth = true) (hb : p.bad = none) (hn : p.key ∉ s.seen) : Ok (s.process p) R := by
  have h1 : Ok { s with count := s.count + 1, seen := p.key :: s.seen, log := s.log ++ [p], closed := s.closed || p.ends } R := by
    constructor
    · intro k
      simp only [List.mem_cons, List.map_append, List.mem_append, List.map_cons, List.map_nil, List.not_mem_nil, or_false]
      rw [h.same k]
      exact Or.comm
    · simp only [List.map_append, List.map_cons, List.map_nil]
      rw [List.nodup_append]
      refine ⟨h.once, by simp, ?_⟩
      intro a h1 b h2 hab
      simp only [List.mem_singleton] at h2
      subst hab; subst h2
      exact hn ((h.same _).mpr h1)
    · intro q hq
      rcases List.mem_append.mp hq with hq | hq
      · exact h.auth q hq
      · rw [List.mem_singleton.mp hq]; exact ha
    · intro q hq
      rcases List.mem_append.mp hq with hq | hq
      · exact h.fine q hq
      · rw [List.mem_singleton.mp hq]; exact hb
    · intro q hq
      rcases List.mem_append.mp hq with hq | hq
      · rcases List.mem_append.mp hq with hq | hq
        · exact h.got q (List.mem_append.mpr (Or.inl hq))
        · rw [List.mem_singleton.mp hq]; exact hp
      · exact h.got q (List.mem_append.mpr (Or.inr hq))
    · exact h.early
    · exact h.few
    · exact h.est
  unfold St.process
  simp only
  split
  · exact h1
  · exact h1.tls _ _ _

theorem recvSingle_ok {s : St} {R : List Pkt} (h : Ok s R) (b : Body)
    (hb : ∀ p, b = .pkt p → p ∈ R) : Ok (recvSingle s b).1 R := by
  cases b with
  | junk =>
    simp only [recvSingle]
    split <;> exact h
  | pkt p =>
    have hp := hb p rfl
    simp only [recvSingle]
    split
    · exact h
    · split
      · split
        · exact h
        · rename_i ha
          split
          · exact h
          · rename_i hn
            split
            · exact h
            · rename_i hbad
              exact h.process hp (by simpa using ha) hbad hn
      · split
        · rename_i hk
          refine ⟨h.same, h.once, h.auth, h.fine, ?_, ?_, ?_, ?_⟩
          · intro q hq
            rcases List.mem_append.mp hq with hq | hq
            · exact h.got q (List.mem_append.mpr (Or.inl hq))
            · rcases List.mem_append.mp hq with hq | hq
              · exact h.got q (List.mem_append.mpr (Or.inr hq))
              · rw [List.mem_singleton.mp hq]; exact hp
          · intro q hq
            rcases List.mem_append.mp hq with hq | hq
            · exact h.early q hq
            · rw [List.mem_singleton.mp hq]; exact hk.1
          · simp only [List.length_append, List.length_singleton]; omega
          · intro he
            rw [hk.2.2] at he; cases he
        · exact h

theorem recvLoop_ok {R : List Pkt} : ∀ (l : List Item) {s : St}, Ok s R →
    (∀ p ∈ packets l, p ∈ R) → Ok (recvLoop s l).1 R
  | [], _, h, _ => h
  | it :: l, s, h, hl => by
    have h1 : Ok (recvSingle s it.body).1 R := recvSingle_ok h it.body (by
      intro p hp
      apply hl
      simp [packets, hp])
    unfold recvLoop
    split
    · rename_i s' he
      rw [he] at h1
      refine recvLoop_ok l h1 ?_
      intro p hp
      apply hl
      unfold packets at hp ⊢
      rw [List.filterMap_cons]
      split
      · exact hp
      · exact List.mem_cons_of_mem _ hp
    · rename_i s' he
      rw [he] at h1
      exact h1.closed _
    · rename_i s' e he
      rw [he] at h1
      exact h1.closed _

theorem single_est {s : St} {p : Pkt} (hp : p.ty = .early) :
    (recvSingle s (.pkt p)).1.established = s.established := by
  simp only [recvSingle]
  repeat' split
  all_goals first
    | rfl
    | simp [St.process, hp]

theorem loop_one {s : St} {p : Pkt} (hp : p.ty = .early) :
    (recvLoop s [{ body := .pkt p }]).1.established = s.established := by
  have h := single_est (s := s) hp
  simp only [recvLoop]
  split <;> rename_i he <;> rw [he] at h <;> exact h

theorem replay_ok {R : List Pkt} : ∀ (l : List Pkt) {s : St}, Ok s R → s.established = false →
    (∀ p ∈ l, p ∈ R ∧ p.ty = .early) → l.length ≤ maxKept → Ok (replay s l).1 R
  | [], s, h, _, _, _ => h.fewer (List.nil_sublist _) (fun _ => rfl)
  | p :: l, s, h, hest, hl, hlen => by
    have h0 : Ok { s with kept := l } R := by
      refine ⟨h.same, h.once, h.auth, h.fine, ?_, ?_, ?_, ?_⟩
      · intro q hq
        rcases List.mem_append.mp hq with hq | hq
        · exact h.got q (List.mem_append.mpr (Or.inl hq))
        · exact (hl q (List.mem_cons_of_mem _ hq)).1
      · intro q hq
        exact (hl q (List.mem_cons_of_mem _ hq)).2
      · simp only [List.length_cons] at hlen
        show l.length ≤ maxKept
        omega
      · intro he
        rw [show ({ s with kept := l } : St).established = s.established from rfl, hest] at he
        cases he
    have hp := hl p (List.mem_cons_self ..)
    have h1 : Ok (recvLoop { s with kept := l } [{ body := .pkt p }]).1 R :=
      recvLoop_ok _ h0 (by
        intro q hq
        simp only [packets, List.filterMap_cons, List.filterMap_nil, List.mem_singleton] at hq
        rw [hq]; exact hp.1)
    have h2 : (recvLoop { s with kept := l } [{ body := .pkt p }]).1.established = false := by
      rw [loop_one hp.2]; exact hest
    unfold replay
    split
    · rename_i s' e he
      rw [he] at h1
      exact h1.fewer (List.nil_sublist _) (fun _ => rfl)
    · rename_i s' he
      rw [he] at h1 h2
      refine replay_ok l h1 h2 (fun q hq => hl q (List.mem_cons_of_mem _ hq)) ?_
      simp only [List.length_cons] at hlen
      omega

theorem replay_kept : ∀ (l : List Pkt) (s : St), (replay s l).1.kept = []
  | [], _ => rfl
  | p :: l, s => by
    unfold replay
    split
    · rfl
    · exact replay_kept l _

theorem flush_ok {s : St} {R : List Pkt} (h : Ok s R) : Ok (flush s).1 R := by
  unfold flush
  split
  · cases he : s.established with
    | false =>
      exact replay_ok _ h he (fun p hp => ⟨h.got p (List.mem_append.mpr (Or.inr hp)), h.early p hp⟩) h.few
    | true =>
      rw [h.est he]
      exact h.fewer (List.nil_sublist _) (fun _ => rfl)
  · exact h

theorem replay_keys_kept (s : St) : Ty.early ∉ (flush s).1.keys ∨ (flush s).1.kept = [] := by
  unfold flush
  split
  · exact Or.inr (replay_kept _ _)
  · rename_i h
    exact Or.inl h

theorem recvLoop_err : ∀ (l : List Item) (s s' : St) (e : Err), recvLoop s l = (s', some e) →
    s'.closed = true
  | [], s, s', e, h => by cases h
  | it :: l, s, s', e, h => by
    unfold recvLoop at h
    split at h
    · exact recvLoop_err l _ _ _ h
    · cases h
    · cases h; rfl

/-! ### Runs -/

/-- The packets in the datagrams of a run. -/
def received : List Ev → List Pkt
  | [] => []
  | .recv _ l :: r => packets l ++ received r
  | _ :: r => received r

/-- A new connection. -/
def start (server : Bool) : St := { server }

/-- The packets kept are those that wait for the key. -/
def Waits (s : St) : Prop := s.closed = true ∨ Ty.early ∉ s.keys ∨ s.kept = []

theorem step_ok {s : St} {R : List Pkt} (h : Ok s R) (e : Ev)
    (he : ∀ k l, e = .recv k l → ∀ p ∈ packets l, p ∈ R) : Ok (step s e) R := by
  cases e with
  | recv k l =>
    have hl := recvLoop_ok l h (he k l rfl)
    simp only [step, recv]
    split
    · exact h
    · split
      · rename_i s' e' hx
        rw [hx] at hl; exact hl
      · rename_i s' hx
        rw [hx] at hl
        exact flush_ok hl
  | send g d c =>
    simp only [step, send]
    split
    · exact h
    · exact flush_ok (h.tls g d c)
  | close => exact h.closed _

theorem step_waits {s : St} (h : Waits s) (e : Ev) : Waits (step s e) := by
  cases e with
  | recv k l =>
    simp only [step, recv]
    split
    · exact h
    · split
      · rename_i s' e' hx
        exact Or.inl (recvLoop_err _ _ _ _ hx)
      · exact Or.inr (replay_keys_kept _)
  | send g d c =>
    simp only [step, send]
    split
    · exact h
    · exact Or.inr (replay_keys_kept _)
  | close => exact Or.inl rfl

theorem run_ok : ∀ (es : List Ev) {s : St} {R : List Pkt}, Ok s R → Waits s →
    (∀ p ∈ received es, p ∈ R) → Ok (run s es) R ∧ Waits (run s es)
  | [], _, _, h, hw, _ => ⟨h, hw⟩
  | e :: es, s, R, h, hw, hr => by
    refine run_ok es (step_ok h e ?_) (step_waits hw e) ?_
    · intro k l hk p hp
      subst hk
      exact hr p (List.mem_append.mpr (Or.inl hp))
    · intro p hp
      apply hr
      cases e with
      | recv k l => exact List.mem_append.mpr (Or.inr hp)
      | send => exact hp
      | close => exact hp

theorem start_ok (server : Bool) (R : List Pkt) : Ok (start server) R :=
  ⟨fun _ => by simp [start], by simp [start], (fun _ h => by cases h), (fun _ h => by cases h),
    (fun _ h => by cases h), (fun _ h => by cases h), Nat.zero_le _, (fun _ => rfl)⟩

/-- The number spaces (RFC 9000, 12.3): 0-RTT and short packets share one. -/
def space : Ty → Nat
  | .initial => 0
  | .handshake => 1
  | _ => 2

theorem key_eq : Pkt.key = fun p => (space p.ty, p.num) := by
  funext p
  unfold Pkt.key
  cases p.ty <;> rfl

/-- A packet is processed at most once, only if it was received and opens with the key of its
type, and only if there is no error in it. -/
theorem once (server : Bool) (es : List Ev) :
    ((run (start server) es).log.map fun p => (space p.ty, p.num)).Nodup ∧
    ∀ p ∈ (run (start server) es).log, p ∈ received es ∧ p.auth = true ∧ p.bad = none := by
  have h := (run_ok es (start_ok server (received es)) (Or.inr (Or.inr rfl)) (fun _ h => h)).1
  exact ⟨key_eq ▸ h.once, fun p hp => ⟨h.got p (List.mem_append.mpr (Or.inl hp)), h.auth p hp, h.fine p hp⟩⟩

/-- At most ten packets are kept, all of type 0-RTT; none once the handshake is complete, and
none on an open connection that has the key. -/
theorem kept (server : Bool) (es : List Ev) :
    let s := run (start server) es
    s.kept.length ≤ 10 ∧ (∀ p ∈ s.kept, p.ty = .early ∧ p ∈ received es) ∧
    (s.established = true → s.kept = []) ∧
    (s.closed = false → Ty.early ∈ s.keys → s.kept = []) := by
  have h := run_ok es (start_ok server (received es)) (Or.inr (Or.inr rfl)) (fun _ h => h)
  refine ⟨h.1.few, fun p hp => ⟨h.1.early p hp, h.1.got p (List.mem_append.mpr (Or.inr hp))⟩, h.1.est, ?_⟩
  intro hc hk
  rcases h.2 with h2 | h2 | h2
  · rw [hc] at h2; cases h2
  · exact absurd hk h2
  · exact h2

/-! ### Packets that wait for their key -/

/-- Of the packets `l`, those that open and are new, in their order. -/
def admit (seen : List (Nat × Nat)) : List Pkt → List Pkt
  | [] => []
  | p :: l =>
    if p.auth = true ∧ (p.ty.space, p.num) ∉ seen then p :: admit ((p.ty.space, p.num) :: seen) l
    else admit seen l

theorem replay_all : ∀ (K : List Pkt) (s : St), s.closed = false → 0 < s.count →
    Ty.early ∈ s.keys → (∀ k ∈ K, k.ty = .early ∧ k.bad = none ∧ k.ends = false) →
    (replay s K).2 = none ∧ (replay s K).1.log = s.log ++ admit s.seen K ∧
    (replay s K).1.closed = false
  | [], s, hc, _, _, _ => by simp [replay, admit, hc]
  | k :: K, s, hc, hn, hk, hK => by
    obtain ⟨h1, h2, h3⟩ := hK k (List.mem_cons_self ..)
    have hK' := fun q hq => hK q (List.mem_cons_of_mem _ hq)
    by_cases ha : k.auth = true ∧ (k.ty.space, k.num) ∉ s.seen
    · have e : recvLoop { s with kept := K } [{ body := .pkt k }] =
          (St.process { s with kept := K } k, none) := by
        simp [recvLoop, recvSingle, hc, h1, hk, ha.1, h2, Pkt.key, Ty.space]
        have := ha.2
        rw [h1] at this
        simp only [Ty.space] at this
        simp [this]
      have hp : St.process { s with kept := K } k =
          { s with kept := K, count := s.count + 1, seen := k.key :: s.seen, log := s.log ++ [k],
                   closed := s.closed || k.ends } := by
        simp [St.process, h1]
      have ih := replay_all K (St.process { s with kept := K } k) (by rw [hp]; simp [hc, h3])
        (by rw [hp]; exact Nat.succ_pos _) (by rw [hp]; exact hk) hK'
      unfold replay
      rw [e]
      refine ⟨ih.1, ?_, ih.2.2⟩
      simp only
      rw [ih.2.1, hp]
      simp only [admit, if_pos ha, Pkt.key, List.append_assoc, List.singleton_append]
    · have e : recvLoop { s with kept := K } [{ body := .pkt k }] = ({ s with kept := K }, none) := by
        by_cases hau : k.auth = true
        · have hs : (k.ty.space, k.num) ∈ s.seen := Classical.byContradiction fun hh => ha ⟨hau, hh⟩
          rw [h1] at hs
          simp only [Ty.space] at hs
          simp [recvLoop, recvSingle, hc, h1, hk, hau, Pkt.key, Ty.space, hs]
        · have hau : k.auth = false := by simpa using hau
          have : ¬ (s.server = true ∧ s.count = 0) := fun h => by omega
          simp [recvLoop, recvSingle, hc, h1, hk, hau, St.dropped, this]
      have ih := replay_all K { s with kept := K } hc hn hk hK'
      unfold replay
      rw [e]
      refine ⟨ih.1, ?_, ih.2.2⟩
      simp only
      rw [ih.2.1]
      simp only [admit, if_neg ha]

/-- Packets as the parts of a datagram. -/
def items (l : List Pkt) : List Item := l.map fun p => { body := .pkt p }

theorem keep_all : ∀ (K : List Pkt) (s : St), s.closed = false → s.established = false →
    Ty.early ∉ s.keys → (∀ k ∈ K, k.ty = .early) → s.kept.length + K.length ≤ 10 →
    recvLoop s (items K) = ({ s with kept := s.kept ++ K }, none)
  | [], s, _, _, _, _, _ => by simp [items, recvLoop]
  | k :: K, s, hc, he, hn, hK, hl => by
    have h1 := hK k (List.mem_cons_self ..)
    simp only [List.length_cons] at hl
    have h2 : s.kept.length < maxKept := by simp only [maxKept]; omega
    have ih := keep_all K { s with kept := s.kept ++ [k] } hc he hn
      (fun q hq => hK q (List.mem_cons_of_mem _ hq)) (by simp only [List.length_append, List.length_singleton]; omega)
    simp only [items, List.map_cons, recvLoop, recvSingle, hc, h1, hn, h2, he]
    simp only [items] at ih
    simpa [hc, he] using ih

theorem keep_run : ∀ (D : List (List Pkt)) (s : St), s.closed = false → s.established = false →
    Ty.early ∉ s.keys → (∀ k ∈ D.flatten, k.ty = .early) → s.kept.length + D.flatten.length ≤ 10 →
    run s (D.map fun K => .recv true (items K)) = { s with kept := s.kept ++ D.flatten }
  | [], s, _, _, _, _, _ => by simp [run]
  | K :: D, s, hc, he, hn, hK, hl => by
    simp only [List.flatten_cons, List.length_append] at hl
    have h1 := keep_all K s hc he hn (fun q hq => hK q (by simp [hq])) (by omega)
    have h2 : step s (.recv true (items K)) = { s with kept := s.kept ++ K } := by
      simp [step, recv, h1, flush, hn]
    have ih := keep_run D { s with kept := s.kept ++ K } hc he hn
      (fun q hq => hK q (by rw [List.flatten_cons]; exact List.mem_append.mpr (Or.inr hq)))
      (by simp only [List.length_append]; omega)
    simp only [List.map_cons, run, h2]
    rw [ih]
    simp

theorem run_append : ∀ (a b : List Ev) (s : St), run s (a ++ b) = run (run s a) b
  | [], _, _ => rfl
  | e :: a, b, s => run_append a b (step s e)

/-- Up to ten 0-RTT packets that come before their key, in any datagrams, are all processed, in
the order of their arrival, right after the packet that brings it; those that do not open or
are duplicates change nothing. -/
theorem order (s : St) (D : List (List Pkt)) (p : Pkt) (hc : s.closed = false)
    (he : s.established = false) (hn : Ty.early ∉ s.keys) (hk : s.kept = [])
    (hD : ∀ k ∈ D.flatten, k.ty = .early ∧ k.bad = none ∧ k.ends = false)
    (hl : D.flatten.length ≤ 10) (hp : p.ty ∈ s.keys) (ha : p.auth = true)
    (hf : (p.ty.space, p.num) ∉ s.seen) (hb : p.bad = none) (hg : Ty.early ∈ p.gives)
    (hq : p.completes = false) (hr : p.ends = false) :
    (run s ((D.map fun K => .recv true (items K)) ++ [.recv true (items [p])])).log =
      s.log ++ p :: admit ((p.ty.space, p.num) :: s.seen) D.flatten := by
  rw [run_append, keep_run D s hc he hn (fun k h => (hD k h).1) (by rw [hk]; simpa using hl), hk]
  have hty : p.ty ≠ .early := fun h => hn (h ▸ hp)
  have h1 : recvLoop { s with kept := D.flatten } (items [p]) =
      (St.process { s with kept := D.flatten } p, none) := by
    simp [items, recvLoop, recvSingle, hc, hp, ha, Pkt.key, hf, hb]
  have h2 := replay_all D.flatten (St.process { s with kept := D.flatten } p)
    (by simp [St.process, hty, St.tls, hc, hr]) (by simp [St.process, hty, St.tls])
    (by simp [St.process, hty, St.tls, hg]) hD
  have h3 : Ty.early ∈ (St.process { s with kept := D.flatten } p).keys := by
    simp [St.process, hty, St.tls, hg]
  have h4 : (St.process { s with kept := D.flatten } p).kept = D.flatten := by
    simp [St.process, hty, St.tls, hq]
  simp only [List.nil_append, run, step, recv, h1]
  simp only [Bool.true_eq_false, and_false, if_false, flush, h3, if_true, h4]
  rw [h2.2.1]
  simp [St.process, hty, St.tls, Pkt.key]

/-! ### The packets behind one in a datagram -/

/-- Every part of `l` is processed or kept. -/
def AllTook (s : St) : List Item → Prop
  | [] => True
  | it :: l => (recvSingle s it.body).2 = .took ∧ AllTook (recvSingle s it.body).1 l

/-- The state after each part of `l`. -/
def after (s : St) (l : List Item) : St := l.foldl (fun s it => (recvSingle s it.body).1) s

theorem loop_append : ∀ (l1 l2 : List Item) (s : St), AllTook s l1 →
    recvLoop s (l1 ++ l2) = recvLoop (after s l1) l2
  | [], _, _, _ => rfl
  | it :: l1, l2, s, h => by
    have ih := loop_append l1 l2 _ h.2
    simp only [List.cons_append, after, List.foldl_cons]
    conv => lhs; unfold recvLoop
    have h1 := h.1
    generalize hx : recvSingle s it.body = x at *
    obtain ⟨s', r⟩ := x
    simp only at h1
    subst h1
    exact ih

theorem single_log (s : St) (b : Body) : s.log <+: (recvSingle s b).1.log := by
  cases b with
  | junk => simp only [recvSingle]; split <;> exact List.prefix_refl _
  | pkt p =>
    simp only [recvSingle]
    repeat' split
    all_goals first
      | exact List.prefix_refl _
      | (simp only [St.process]
         split
         · exact List.prefix_append _ _
         · exact List.prefix_append _ _)

theorem loop_log : ∀ (l : List Item) (s : St), s.log <+: (recvLoop s l).1.log
  | [], _ => List.prefix_refl _
  | it :: l, s => by
    have h := single_log s it.body
    unfold recvLoop
    split <;> rename_i he <;> rw [he] at h
    · exact h.trans (loop_log l _)
    · exact h
    · exact h

/-- A packet behind others in its datagram is processed if it would be in a datagram of its own
at that point, provided that each of the others was processed or kept. What is missing: that
also holds when one of them was not (`rest_false`). -/
theorem rest_partial (s : St) (l1 l2 : List Item) (p : Pkt) (h : AllTook s l1)
    (hp : p ∈ (recvLoop (after s l1) [{ body := .pkt p }]).1.log) :
    p ∈ (recvLoop s (l1 ++ { body := .pkt p } :: l2)).1.log := by
  rw [loop_append _ _ _ h]
  simp only [recvLoop] at hp ⊢
  split at hp
  · exact (loop_log l2 _).subset hp
  · exact hp
  · exact hp

/-- An Initial packet with the client's first flight: the server has the key for Handshake
packets after it. -/
def hello : Pkt := { ty := .initial, num := 0, gives := [.handshake, .short] }

/-- A Handshake packet of the client; the server drops the key for Initial packets. -/
def reply : Pkt := { ty := .handshake, num := 0, drops := [.initial] }

/-- The packet that ends the handshake. -/
def fin : Pkt := { ty := .handshake, num := 1, drops := [.handshake], completes := true }

/-- A packet that is processed if it comes alone is dropped behind a duplicate (1), and behind a
packet whose key was dropped (2): here the last packet of the handshake, behind an Initial
packet with which the client acknowledges the server's; the connection is open all along. -/
theorem rest_false :
    (let s := run (start true) [.recv true (items [hello])]
     s.closed = false ∧ reply ∈ (recv s true (items [reply])).1.log ∧
     reply ∉ (recv s true (items [hello, reply])).1.log ∧
     (recv s true (items [hello, reply])).1.closed = false) ∧
    (let s := run (start true) [.recv true (items [hello]), .recv true (items [reply])]
     s.closed = false ∧ (recv s true (items [fin])).1.established = true ∧
     (recv s true (items [{ ty := .initial, num := 1 }, fin])).1.established = false ∧
     (recv s true (items [{ ty := .initial, num := 1 }, fin])).1.closed = false) := by
  decide +kernel

/-- Packets that anyone can send fill the queue: after ten of them a 0-RTT packet of the client
is lost (1). On a server that processed nothing yet the eleventh closes the connection (2). -/
theorem forged_false :
    (let junk := (List.range 10).map fun n => { ty := .early, num := n, auth := false : Pkt }
     let p : Pkt := { ty := .early, num := 0 }
     let hi : Pkt := { ty := .initial, num := 1, gives := [.early] }
     let s := run (start true) [.recv true (items [{ ty := .initial, num := 0 }])]
     (run s [.recv true (items [p]), .recv true (items [hi])]).log = s.log ++ [hi, p] ∧
     (run s [.recv true (items junk), .recv true (items [p]), .recv true (items [hi])]).log = s.log ++ [hi]) ∧
    (let l := (List.range 11).map fun n => { ty := .early, num := n : Pkt }
     (run (start true) [.recv true (items (l.take 10))]).closed = false ∧
     (run (start true) [.recv true (items l)]).closed = true) := by
  decide +kernel

/-- Three 0-RTT packets in two datagrams come before the Initial packet, one of them twice. -/
example :
    (run (start true) [.recv true (items [{ ty := .early, num := 0 }, { ty := .early, num := 1 }]),
      .recv true (items [{ ty := .early, num := 0 }, { ty := .early, num := 2 }]),
      .recv true (items [{ ty := .initial, num := 0, gives := [.early] }])]).log.map Pkt.key =
      [(0, 0), (2, 0), (2, 1), (2, 2)] := by
  decide +kernel

/-- A datagram of an Initial and a Handshake packet: both are processed. -/
example : (recv (start true) true (items [hello, reply])).1.log = [hello, reply] := by
  decide +kernel

end Verif.Props.C172
