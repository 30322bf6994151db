import Verif.Tq.WorkerSteps

/-!
C176: the task that serves a connection.
-/

namespace Verif.Props.C176
open Verif Verif.Tq.Worker

variable {C : Type}

/-! ## What is claimed -/

/-- The datagrams the connection was given. -/
def handed (l : List Ev) : List Bytes := l.filterMap fun | .dgram b => some b | _ => none

/-- The packets the router passed on. -/
def arrivals (ops : List Op) : List Incoming := ops.filterMap fun | .arrive p => some p | _ => none

/-- The life of a connection, as the application sees it. -/
inductive Life where
  | shaking
  | told
  | running
  | closing (e : End)
  | over
  deriving DecidableEq, Repr

/-- What may happen when. -/
def Life.next : Life → Ev → Option Life
  | .shaking, .dgram _ => some .shaking
  | .shaking, .onTimeout _ => some .shaking
  | .shaking, .look => some .shaking
  | .shaking, .sent _ => some .shaking
  | .shaking, .established _ => some .told
  | .shaking, .onClose e => some (.closing e)
  | .shaking, .ended _ => some .over
  | .told, .forget => some .running
  | .told, .onClose e => some (.closing e)
  | .told, .ended _ => some .over
  | .running, .dgram _ => some .running
  | .running, .onTimeout _ => some .running
  | .running, .look => some .running
  | .running, .sent _ => some .running
  | .running, .reads => some .running
  | .running, .writes => some .running
  | .running, .onClose e => some (.closing e)
  | .running, .ended _ => some .over
  | .closing e, .ended e' => if e = e' then some .over else none
  | _, _ => none

def Life.after : Option Life → List Ev → Option Life
  | p, [] => p
  | p, e :: l => Life.after (p.bind (·.next e)) l

/-- Whether the connection has got datagrams the application has not looked for. -/
def unread : Bool → List Ev → Bool
  | b, [] => b
  | _, .dgram _ :: l => unread true l
  | _, .reads :: l => unread false l
  | b, _ :: l => unread b l

/-- How many packets went out since the incoming queue was last seen empty. -/
def burst : Nat → List Ev → Nat
  | n, [] => n
  | _, .look :: l => burst 0 l
  | n, .sent k :: l => burst (n + k) l
  | n, _ :: l => burst n l

/-! ## Lists of events -/

theorem handed_append (a b : List Ev) : handed (a ++ b) = handed a ++ handed b := by
  simp [handed]

theorem handed_dgrams (l : List Bytes) : handed (l.map .dgram) = l := by
  induction l with
  | nil => rfl
  | cons b l ih =>
    have : handed (.dgram b :: l.map .dgram) = b :: handed (l.map .dgram) := rfl
    simp [this, ih]

theorem after_append (a : List Ev) : ∀ (p : Option Life) (b : List Ev),
    Life.after p (a ++ b) = Life.after (Life.after p a) b := by
  induction a with
  | nil => intro p b; rfl
  | cons e a ih => intro p b; exact ih _ _

theorem unread_append (a : List Ev) : ∀ (p : Bool) (b : List Ev),
    unread p (a ++ b) = unread (unread p a) b := by
  induction a with
  | nil => intro p b; rfl
  | cons e a ih => intro p b; cases e <;> exact ih _ _

theorem burst_append (a : List Ev) : ∀ (p : Nat) (b : List Ev),
    burst p (a ++ b) = burst (burst p a) b := by
  induction a with
  | nil => intro p b; rfl
  | cons e a ih => intro p b; cases e <;> exact ih _ _

theorem after_dgrams (p : Life) (h : p = .shaking ∨ p = .running) (l : List Bytes) :
    Life.after (some p) (l.map .dgram) = some p := by
  induction l with
  | nil => rfl
  | cons b l ih => rcases h with rfl | rfl <;> exact ih

theorem burst_dgrams (n : Nat) (l : List Bytes) : burst n (l.map .dgram) = n := by
  induction l with
  | nil => rfl
  | cons b l ih => exact ih

theorem calls_handed {l : List Ev} (h : Calls l) : handed l = [] := by
  rcases h with rfl | rfl | rfl | rfl <;> rfl

theorem calls_after {l : List Ev} (h : Calls l) : Life.after (some .running) l = some .running := by
  rcases h with rfl | rfl | rfl | rfl <;> rfl

theorem calls_burst {l : List Ev} (h : Calls l) (n : Nat) : burst n l = n := by
  rcases h with rfl | rfl | rfl | rfl <;> rfl

theorem calls_unread {l : List Ev} (h : Calls l) (b : Bool) (hb : b = true → ∃ l', l = .reads :: l') :
    unread b l = false := by
  cases b
  · rcases h with rfl | rfl | rfl | rfl <;> rfl
  · obtain ⟨l', hl⟩ := hb rfl
    rcases h with rfl | rfl | rfl | rfl
    · simp at hl
    · rfl
    · simp at hl
    · rfl

/-! ## Datagrams -/

theorem chunks_spec (n : Nat) (hn : 0 < n) (fuel : Nat) : ∀ l : Bytes, l.length ≤ fuel →
    (chunks fuel n l).flatten = l ∧ (∀ d ∈ chunks fuel n l, d ≠ [] ∧ d.length ≤ n) ∧
    ∀ d ∈ (chunks fuel n l).dropLast, d.length = n := by
  induction fuel with
  | zero =>
    intro l hl
    have : l = [] := List.length_eq_zero_iff.mp (by omega)
    subst this
    simp [chunks]
  | succ fuel ih =>
    intro l hl
    unfold chunks
    by_cases h0 : l = []
    · simp [h0]
    · rw [if_neg h0]
      have hpos : 0 < l.length := List.length_pos_iff.mpr h0
      obtain ⟨h1, h2, h3⟩ := ih (l.drop n) (by simp; omega)
      refine ⟨by simp [h1], ?_, ?_⟩
      · intro d hd
        rcases List.mem_cons.mp hd with rfl | hd
        · constructor
          · intro hh
            rw [List.take_eq_nil_iff] at hh
            rcases hh with hh | hh
            · omega
            · exact h0 hh
          · simp; omega
        · exact h2 d hd
      · intro d hd
        rcases hc : chunks fuel n (l.drop n) with _ | ⟨y, ys⟩
        · rw [hc] at hd; simp at hd
        · rw [hc, List.dropLast_cons_of_ne_nil (by simp)] at hd
          rcases List.mem_cons.mp hd with rfl | hd
          · rw [hc] at h1
            have hy := h2 y (by rw [hc]; simp)
            have : l.drop n ≠ [] := by
              rw [← h1]
              intro hh
              simp at hh
              exact hy.1 hh.1
            have := List.length_pos_iff.mpr this
            simp at this ⊢
            omega
          · exact h3 d (by rw [hc]; exact hd)

/-- A buffer which holds several datagrams is cut into pieces of the size given; only the last may
be shorter, and no byte is lost. -/
theorem datagrams (p : Incoming) (n : Nat) (hn : 0 < n) (hg : p.gro = some n) :
    p.dgrams.flatten = p.buf ∧ (∀ d ∈ p.dgrams, d ≠ [] ∧ d.length ≤ n) ∧
    ∀ d ∈ p.dgrams.dropLast, d.length = n := by
  have : p.dgrams = chunks p.buf.length n p.buf := by unfold Incoming.dgrams; rw [hg]
  rw [this]
  exact chunks_spec n hn _ _ (Nat.le_refl _)

def Waiting (s : St C) : List Bytes := (s.inPkt.toList ++ s.queue).flatMap Incoming.dgrams

/-- In one step nothing the router has passed on is lost, unless the work ends. -/
theorem tr_delivery (x : Cx C) {s s' : St C} (h : Tr x s s') (hi : s.pc = .sleep → s.inPkt = none) :
    (s'.stage ≠ .over → handed s'.log ++ Waiting s' = handed s.log ++ Waiting s) ∧
    handed s'.log <+: handed s.log ++ Waiting s := by
  have fin : ∀ (y : St C) (e : End), handed y.log <+: handed s.log ++ Waiting s →
      ((y.finish x e).stage ≠ .over → handed (y.finish x e).log ++ Waiting (y.finish x e) = handed s.log ++ Waiting s) ∧
      handed (y.finish x e).log <+: handed s.log ++ Waiting s := by
    intro y e hy
    obtain ⟨c, l, h1, h2⟩ := finish_eq x y e
    rw [h1]
    refine ⟨fun hh => absurd rfl hh, ?_⟩
    simp only [handed_append]
    rcases h2 with rfl | rfl
    · simpa [handed] using hy
    · simpa [handed] using hy
  have same : ∀ l, handed l = [] → handed (s.log ++ l) <+: handed s.log ++ Waiting s := by
    intro l hl; rw [handed_append, hl]; simp
  have keep : ∀ (y : St C) (l : List Ev), handed l = [] → y.log = s.log ++ l → y.inPkt = s.inPkt → y.queue = s.queue →
      (y.stage ≠ .over → handed y.log ++ Waiting y = handed s.log ++ Waiting s) ∧
      handed y.log <+: handed s.log ++ Waiting s := by
    intro y l hl h1 h2 h3
    refine ⟨fun _ => ?_, by rw [h1]; exact same l hl⟩
    rw [h1, handed_append, hl]
    simp [Waiting, h2, h3]
  cases h with
  | top => exact keep _ [] rfl (by simp) rfl rfl
  | again => exact keep _ [] rfl (by simp) rfl rfl
  | enough => exact keep _ [] rfl (by simp) rfl rfl
  | recv s1 p c hpc hn =>
    have : handed s1.log ++ p.dgrams ++ Waiting s1 = handed s.log ++ Waiting s := by
      rcases next_eq hn with ⟨h1, rfl⟩ | ⟨h1, q, h2, rfl⟩
      · simp [Waiting, h1]
      · simp [Waiting, h1, h2]
    simp only [handed_append, handed_dgrams]
    refine ⟨fun _ => by simpa [Waiting] using this, ?_⟩
    rw [← this]
    exact List.prefix_append _ _
  | recvBad s1 p c l hpc hn hl =>
    apply fin
    have : handed s1.log ++ p.dgrams ++ Waiting s1 = handed s.log ++ Waiting s := by
      rcases next_eq hn with ⟨h1, rfl⟩ | ⟨h1, q, h2, rfl⟩
      · simp [Waiting, h1]
      · simp [Waiting, h1, h2]
    simp only [handed_append, handed_dgrams]
    rw [← this]
    obtain ⟨t, ht⟩ := hl
    rw [← ht]
    exact ⟨t ++ Waiting s1, by simp⟩
  | look => exact keep _ [.look] rfl rfl rfl rfl
  | read c l hpc hl => exact keep _ l (calls_handed hl) rfl rfl rfl
  | readBad c l hpc hs hl => exact fin _ _ (same l (calls_handed hl))
  | innerEnd => exact keep _ [] rfl (by simp) rfl rfl
  | sendBad => exact fin _ _ (by simp [St.took])
  | closed => exact fin _ _ (by simp [St.took])
  | sent c g => exact keep _ [.sent g.pkts] rfl rfl rfl rfl
  | refused c g c' =>
    refine fin _ _ ?_
    have := same ([.sent g.pkts] ++ [.established (x.established c)]) rfl
    simpa [St.took] using this
  | shook c g c' l hpc hs hp hr hg he hl =>
    refine keep _ ([.sent g.pkts] ++ [.established (x.established c), .forget] ++ l) ?_ (by simp [St.took]) rfl rfl
    rw [handed_append, calls_handed hl]; rfl
  | shookBad c g c' l hpc hs hp hr hg he hl =>
    refine fin _ _ ?_
    have := same ([.sent g.pkts] ++ [.established (x.established c), .forget] ++ l)
      (by rw [handed_append, calls_handed hl]; rfl)
    simpa [St.took] using this
  | armOld => exact keep _ [] rfl (by simp) rfl rfl
  | armNew => exact keep _ [] rfl (by simp) rfl rfl
  | stay => exact keep _ [] rfl (by simp) rfl rfl
  | expired => exact fin _ _ (by simpa using same [] rfl)
  | post => exact keep _ [] rfl (by simp) rfl rfl
  | timer => exact keep _ [.onTimeout s.clock] rfl rfl rfl rfl
  | packet p q hpc hd hq =>
    have := hi hpc
    refine ⟨fun _ => by simp [Waiting, this, hq], by simp⟩
  | app => exact keep _ [] rfl (by simp) rfl rfl
  | appBad => exact fin _ _ (by simpa using same [] rfl)
  | tlsBad => exact fin _ _ (by simpa [St.took] using same [] rfl)
  | poll => exact keep _ [] rfl (by simp [St.took]) rfl rfl
  | flush c g => exact keep _ [.sent g.pkts] rfl rfl rfl rfl

/-- The packet slot is empty outside of the places between a wake and the next look. -/
def Slot (s : St C) : Prop :=
  s.stage = .over ∨ s.inPkt = none ∨ s.pc = .post ∨ s.pc = .top ∨ (s.pc = .outer ∧ s.pend = true) ∨ s.pc = .drain

theorem tr_slot (x : Cx C) {s s' : St C} (ho : s.stage ≠ .over) (hs : Slot s) (h : Tr x s s') : Slot s' := by
  have fin : ∀ (y : St C) (e : End), Slot (y.finish x e) := by
    intro y e
    obtain ⟨c, l, h1, h2⟩ := finish_eq x y e
    rw [h1]; exact Or.inl rfl
  unfold Slot at hs
  cases h <;> first
    | exact fin _ _
    | (rename_i hn
       rcases next_eq hn with ⟨h1, rfl⟩ | ⟨h1, q, h2, rfl⟩ <;> simp_all [Slot, St.took])
    | (unfold St.next at *; simp_all [Slot, St.took]; done)
    | (rename_i hn
       unfold St.next at hn
       split at hn <;> simp_all [Slot, St.took])

/-- What the connection is given are the datagrams of the packets which the router passed on, in
their order, each once; until the work ends the others are waiting. -/
theorem delivery (x : Cx C) (c : C) (first : Option Incoming) (t : Nat) (dl : Option Nat) (ops : List Op) :
    let s := (start c first t dl).run x ops
    let all := (first.toList ++ arrivals ops).flatMap Incoming.dgrams
    handed s.log <+: all ∧
    (s.stage ≠ .over → handed s.log ++ (s.inPkt.toList ++ s.queue).flatMap Incoming.dgrams = all) := by
  have key : ∀ (ops : List Op) (s : St C) (all : List Bytes), Slot s → handed s.log <+: all →
      (s.stage ≠ .over → handed s.log ++ Waiting s = all) →
      handed (s.run x ops).log <+: all ++ (arrivals ops).flatMap Incoming.dgrams ∧
      ((s.run x ops).stage ≠ .over →
        handed (s.run x ops).log ++ Waiting (s.run x ops) = all ++ (arrivals ops).flatMap Incoming.dgrams) := by
    intro ops
    induction ops with
    | nil => intro s all _ h1 h2; simpa [arrivals, St.run] using ⟨h1, h2⟩
    | cons op ops ih =>
      intro s all hs h1 h2
      have tr : ∀ s', s.stage ≠ .over → Tr x s s' → Slot s' ∧ handed s'.log <+: all ∧
          (s'.stage ≠ .over → handed s'.log ++ Waiting s' = all) := by
        intro s' ho ht
        have hsl : s.pc = .sleep → s.inPkt = none := by
          intro hp; unfold Slot at hs; simp_all
        obtain ⟨ha, hb⟩ := tr_delivery x ht hsl
        rw [h2 ho] at ha hb
        exact ⟨tr_slot x ho hs ht, hb, ha⟩
      cases op with
      | arrive p =>
        have e : all ++ (arrivals (.arrive p :: ops)).flatMap Incoming.dgrams =
            (all ++ p.dgrams) ++ (arrivals ops).flatMap Incoming.dgrams := by simp [arrivals]
        rw [e]
        apply ih
        · unfold Slot at hs ⊢; simpa [St.step] using hs
        · exact h1.trans (List.prefix_append _ _)
        · intro ho
          have := h2 ho
          simp only [St.step, Waiting] at this ⊢
          rw [← this]; simp
      | pass d => exact ih (s.step x (.pass d)) all hs h1 h2
      | go =>
        have e : arrivals (.go :: ops) = arrivals ops := by simp [arrivals]
        rw [e]
        simp only [St.run, St.step]
        by_cases ho : s.stage = .over
        · rw [if_pos ho]; exact ih s all hs h1 h2
        · rw [if_neg ho]
          obtain ⟨a, b, d⟩ := tr _ ho (go_tr x s ho)
          exact ih _ all a b d
      | wake =>
        have e : arrivals (.wake :: ops) = arrivals ops := by simp [arrivals]
        rw [e]
        simp only [St.run, St.step]
        by_cases ho : s.stage = .over
        · rw [if_pos ho]; exact ih s all hs h1 h2
        · rw [if_neg ho]
          by_cases hp : s.pc = .sleep
          · rw [if_pos hp]
            obtain ⟨a, b, d⟩ := tr _ ho (wake_tr x s hp)
            exact ih _ all a b d
          · rw [if_neg hp]; exact ih s all hs h1 h2
  have := key ops (start c first t dl) (first.toList.flatMap Incoming.dgrams)
    (by simp [Slot, start]) (by simp [start, handed]) (by simp [start, handed, Waiting])
  simpa [Waiting] using this

/-! ## The life of a connection -/

def stageLife : Stage → Life
  | .handshake _ => .shaking
  | .running => .running
  | .over => .over

def Lived (s : St C) : Prop := Life.after (some .shaking) s.log = some (stageLife s.stage)

theorem stage_not_over (a : Stage) (h : a ≠ .over) :
    stageLife a = .shaking ∨ stageLife a = .running := by
  cases a <;> simp_all [stageLife]

theorem tr_lived (x : Cx C) {s s' : St C} (ho : s.stage ≠ .over) (hs : Lived s) (h : Tr x s s') : Lived s' := by
  have fin : ∀ (y : St C) (e : End) (p : Life), Life.after (some .shaking) y.log = some p →
      p = .shaking ∨ p = .told ∨ p = .running → Lived (y.finish x e) := by
    intro y e p hy hp
    obtain ⟨c, l, h1, h2⟩ := finish_eq x y e
    rw [h1]
    simp only [Lived, after_append, hy]
    rcases h2 with rfl | rfl <;> rcases hp with rfl | rfl | rfl <;> simp [Life.after, Life.next, stageLife]
  have sh : ∀ {s : St C}, s.stage ≠ .over → s.stage ≠ .running → stageLife s.stage = .shaking := by
    intro s h1 h2; cases hh : s.stage <;> simp_all [stageLife]
  have two := stage_not_over _ ho
  have three : stageLife s.stage = .shaking ∨ stageLife s.stage = .told ∨ stageLife s.stage = .running := by
    rcases two with h | h <;> simp [h]
  unfold Lived at hs
  cases h with
  | top => exact hs
  | again => exact hs
  | enough => exact hs
  | recv s1 p c hpc hn =>
    have e : s1.log = s.log ∧ s1.stage = s.stage := by
      rcases next_eq hn with ⟨h1, rfl⟩ | ⟨h1, q, h2, rfl⟩ <;> exact ⟨rfl, rfl⟩
    simp only [Lived, after_append, e.1, e.2, hs]
    exact after_dgrams _ two _
  | recvBad s1 p c l hpc hn hl =>
    have e : s1.log = s.log ∧ s1.stage = s.stage := by
      rcases next_eq hn with ⟨h1, rfl⟩ | ⟨h1, q, h2, rfl⟩ <;> exact ⟨rfl, rfl⟩
    refine fin _ _ (stageLife s.stage) ?_ three
    simp only [after_append, e.1, hs]
    exact after_dgrams _ two _
  | look =>
    simp only [Lived, after_append, hs]
    rcases two with h | h <;> rw [h] <;> rfl
  | read c l hpc hl h0 =>
    simp only [Lived, after_append, hs]
    by_cases hr : s.stage = .running
    · rw [hr]; exact calls_after hl
    · rw [h0 hr]; rfl
  | readBad c l hpc hr hl =>
    refine fin _ _ .running ?_ (by simp)
    simp only [after_append, hs, hr]
    exact calls_after hl
  | innerEnd => exact hs
  | sendBad => exact fin _ _ _ hs three
  | closed => exact fin _ _ _ hs three
  | sent c g =>
    simp only [Lived, after_append, hs, St.took]
    rcases two with h | h <;> rw [h] <;> rfl
  | refused c g c' hpc hr =>
    refine fin _ _ .told ?_ (by simp)
    simp only [after_append, hs, sh ho hr]
    rfl
  | shook c g c' l hpc hr hp hk hg he hl =>
    simp only [Lived, after_append, hs, sh ho hr]
    exact calls_after hl
  | shookBad c g c' l hpc hr hp hk hg he hl =>
    refine fin _ _ .running ?_ (by simp)
    simp only [after_append, hs, sh ho hr]
    exact calls_after hl
  | armOld => exact hs
  | armNew => exact hs
  | stay => exact hs
  | expired => exact fin _ _ _ hs three
  | post => exact hs
  | timer =>
    simp only [Lived, after_append, hs]
    rcases two with h | h <;> rw [h] <;> rfl
  | packet => exact hs
  | app => exact hs
  | appBad => exact fin _ _ _ hs three
  | tlsBad => exact fin _ _ _ hs three
  | poll => exact hs
  | flush c g =>
    simp only [Lived, after_append, hs, St.took]
    rcases two with h | h <;> rw [h] <;> rfl

/-- The application is told of the connection at most once and before it is asked for anything; it
reads and writes only after that and before the end; the end comes once, `on_conn_close` is given
the result the work ends with, and nothing follows. -/
theorem order (x : Cx C) (c : C) (first : Option Incoming) (t : Nat) (dl : Option Nat) (ops : List Op) :
    let s := (start c first t dl).run x ops
    Life.after (some .shaking) s.log = some (stageLife s.stage) :=
  run_inv x Lived (fun _ _ ho hs h => tr_lived x ho hs h) (fun _ _ h => h) (fun _ _ h => h) ops _ rfl

/-! ## The application reads -/

def Read (s : St C) : Prop :=
  s.stage = .running → unread false s.log = true → s.didRecv = true ∧ (s.pc = .drain ∨ s.pc = .read)

theorem tr_read (x : Cx C) (ha : ∀ c, x.act c = true) {s s' : St C} (hs : Read s) (h : Tr x s s') : Read s' := by
  have fin : ∀ (y : St C) (e : End), Read (y.finish x e) := by
    intro y e
    obtain ⟨c, l, h1, h2⟩ := finish_eq x y e
    rw [h1]; intro h; simp at h
  unfold Read at hs
  cases h with
  | recv s1 p c hpc hn =>
    intro hr hu
    have e : s1.pc = s.pc := by
      rcases next_eq hn with ⟨h1, rfl⟩ | ⟨h1, q, h2, rfl⟩ <;> rfl
    exact ⟨rfl, Or.inl (by rw [← hpc, ← e])⟩
  | read c l hpc hl h0 h1 =>
    intro hr hu
    simp only at hr
    simp only [unread_append] at hu
    rw [calls_unread hl _ (fun hb => h1 hr (ha _) (hs hr hb).1)] at hu
    simp at hu
  | shook c g c' l hpc hr hp hk hg he hl hrd =>
    intro _ hu
    obtain ⟨l', rfl⟩ := hrd (ha _)
    simp only [unread_append] at hu
    rw [calls_unread hl _ (fun _ => ⟨_, rfl⟩)] at hu
    simp at hu
  | _ =>
    first
    | exact fin _ _
    | (intro hr hu; simp_all [unread_append, unread, St.took])

/-- An application that is always ready to act has looked for what came before the task sleeps or
sends: no datagram is left which it has not been called for. -/
theorem reads_first (x : Cx C) (ha : ∀ c, x.act c = true) (c : C) (first : Option Incoming) (t : Nat)
    (dl : Option Nat) (ops : List Op) :
    let s := (start c first t dl).run x ops
    s.stage = .running → s.pc = .inner ∨ s.pc = .sleep → unread false s.log = false := by
  intro s hr hp
  have h : Read s := run_inv x Read (fun _ _ _ hs h => tr_read x ha hs h) (fun _ _ h => h)
    (fun _ _ h => h) ops (start c first t dl) (by intro h; simp [start] at h)
  by_cases hu : unread false s.log = true
  · have := (h hr hu).2
    rcases hp with hp | hp <;> simp [hp] at this
  · simpa using hu

/-! ## The incoming queue is looked at -/

def Bursts (m : Nat) (s : St C) : Prop :=
  s.stage = .over ∨
  (burst 0 s.log ≤ ratio - 1 + 2 * m ∧
  (s.pc = .read → burst 0 s.log = 0 ∧ s.sent = 0) ∧
  (s.pc = .drain → s.sent = 0) ∧
  (s.pc = .inner → burst 0 s.log = s.sent) ∧
  ((s.pc = .inner ∨ s.pc = .arm ∨ s.pc = .sleep ∨ (s.pc = .outer ∧ s.pend = false)) →
    burst 0 s.log ≤ ratio - 1 + m))

theorem tr_bursts (x : Cx C) (m : Nat) (hm : ∀ c t, (x.gather c t).2.pkts ≤ m) {s s' : St C}
    (ho : s.stage ≠ .over) (hs : Bursts m s) (h : Tr x s s') : Bursts m s' := by
  have fin : ∀ (y : St C) (e : End), Bursts m (y.finish x e) := by
    intro y e
    obtain ⟨c, l, h1, h2⟩ := finish_eq x y e
    rw [h1]; exact Or.inl rfl
  rcases hs with hs | ⟨h1, h2, h3, h4, h5⟩
  · exact absurd hs ho
  · cases h with
    | recv s1 p c hpc hn =>
      right
      have e : s1.pc = s.pc ∧ s1.log = s.log ∧ s1.sent = s.sent := by
        rcases next_eq hn with ⟨h1, rfl⟩ | ⟨h1, q, h2, rfl⟩ <;> exact ⟨rfl, rfl, rfl⟩
      simp only [burst_append, burst_dgrams, e.1, e.2.1, e.2.2]
      refine ⟨h1, h2, h3, h4, ?_⟩
      simp [hpc]
    | look hpc =>
      right
      simp only [burst_append, burst]
      have := h3 hpc
      refine ⟨by omega, fun _ => by simp [this], by simp, by simp, by simp⟩
    | read c l hpc hl h0 =>
      right
      simp only [burst_append, calls_burst hl]
      have := h2 hpc
      refine ⟨h1, by simp, by simp, fun _ => by omega, fun _ => by omega⟩
    | sent c g hpc hg hp hk =>
      right
      have hmg := hm s.c s.clock
      rw [hg] at hmg
      simp only at hmg
      have := h4 hpc
      simp only [burst_append, burst, St.took]
      simp only [ratio] at *
      refine ⟨by omega, by simp [hpc], by simp [hpc], fun _ => by omega, fun _ => by omega⟩
    | shook c g c' l hpc hr hp hk hg he hl =>
      right
      have hmg := hm s.c s.clock
      rw [hg] at hmg
      simp only at hmg
      have := h4 hpc
      simp only [burst_append, burst, calls_burst hl]
      simp only [ratio] at *
      refine ⟨by omega, by simp, by simp, by simp, by simp⟩
    | flush c g hpc hd hq hg =>
      right
      have hmg := hm s.c s.clock
      rw [hg] at hmg
      simp only at hmg
      have := h5 (by simp [hpc])
      simp only [burst_append, burst]
      simp only [ratio] at *
      refine ⟨by omega, by simp, by simp, by simp, by simp⟩
    | timer hpc =>
      right
      have := h5 (by simp [hpc])
      simp only [burst_append, burst]
      refine ⟨by omega, by simp, by simp, by simp, by simp⟩
    | _ =>
      first
      | exact fin _ _
      | (right; simp_all [Bursts, St.took]; done)
      | (right; simp_all [Bursts, St.took]; omega)

/-- However much there is to send: when one batch has at most `m` packets, at most `127 + 2 m`
packets go out between two looks at the incoming queue. -/
theorem responsive (x : Cx C) (m : Nat) (hm : ∀ c t, (x.gather c t).2.pkts ≤ m) (c : C)
    (first : Option Incoming) (t : Nat) (dl : Option Nat) (ops : List Op) :
    let s := (start c first t dl).run x ops
    s.stage ≠ .over → burst 0 s.log ≤ 127 + 2 * m := by
  intro s ho
  have h : Bursts m s := run_inv x (Bursts m) (fun _ _ ho hs h => tr_bursts x m hm ho hs h)
    (fun _ _ h => h) (fun _ _ h => h) ops (start c first t dl) (by simp [Bursts, start, burst])
  rcases h with h | h
  · exact absurd h ho
  · simpa [ratio] using h.1

/-! ## Timers -/

/-- The timer is set to the deadline noted. -/
def Set (s : St C) : Prop :=
  s.now ≤ s.clock ∧ (∀ d, s.cur = some d → s.sleepAt = d) ∧ (s.cur = none → s.sleepAt ≤ s.clock + defaultSleep)

theorem tr_set (x : Cx C) {s s' : St C} (hs : Set s) (h : Tr x s s') : Set s' := by
  have fin : ∀ (y : St C) (e : End), Set y → Set (y.finish x e) := by
    intro y e hy
    obtain ⟨c, l, h1, h2⟩ := finish_eq x y e
    rw [h1]; exact hy
  obtain ⟨h1, h2, h3⟩ := hs
  cases h with
  | top => exact ⟨Nat.le_refl _, h2, h3⟩
  | recv s1 p c hpc hn =>
    rcases next_eq hn with ⟨_, rfl⟩ | ⟨_, q, _, rfl⟩ <;> exact ⟨h1, h2, h3⟩
  | recvBad s1 p c l hpc hn hl =>
    apply fin
    rcases next_eq hn with ⟨_, rfl⟩ | ⟨_, q, _, rfl⟩ <;> exact ⟨h1, h2, h3⟩
  | shook => exact ⟨h1, by simp, fun _ => Nat.le_refl _⟩
  | armNew d hpc hd =>
    refine ⟨h1, ?_, ?_⟩
    · intro d' hd'
      simp only at hd'
      simp [hd']
    · intro hd'
      simp only at hd'
      simp only [hd', Option.getD_none]
      omega
  | timer => exact ⟨h1, by simp, fun _ => by simp only; omega⟩
  | _ =>
    first
    | exact ⟨h1, h2, h3⟩
    | (apply fin; exact ⟨h1, h2, h3⟩)

theorem set_run (x : Cx C) (c : C) (first : Option Incoming) (t : Nat) (dl : Option Nat) (ops : List Op) :
    Set ((start c first t dl).run x ops) :=
  run_inv x Set (fun _ _ _ hs h => tr_set x hs h) (fun _ _ h => h)
    (fun s d h => ⟨by have := h.1; simp only; omega, h.2.1, fun hc => by have := h.2.2 hc; simp only; omega⟩)
    ops _ ⟨by simp [start], by simp [start], by simp [start]⟩

theorem min_le {a b c : Option Nat} {m : Nat} (h : minOfSome (minOfSome a b) c = some m) :
    (∀ t, a = some t → m ≤ t) ∧ (∀ t, b = some t → m ≤ t) ∧ (∀ t, c = some t → m ≤ t) ∧
    (a = some m ∨ b = some m ∨ c = some m) := by
  rcases a with _ | a <;> rcases b with _ | b <;> rcases c with _ | c <;>
    simp only [minOfSome, Option.some.injEq, reduceCtorEq] at h ⊢ <;>
    (try subst h) <;> simp <;> omega

theorem min_none {a b c : Option Nat} (h : minOfSome (minOfSome a b) c = none) :
    a = none ∧ b = none ∧ c = none := by
  rcases a with _ | a <;> rcases b with _ | b <;> rcases c with _ | c <;>
    simp [minOfSome] at h ⊢

/-- Going to sleep, the timer is set to the first of: the connection's timeout, the time at which
the pacer lets packets go, the end of the time for the handshake. With none of them, it is at most
60 seconds away. -/
theorem timers (x : Cx C) (c : C) (first : Option Incoming) (t : Nat) (dl : Option Nat) (ops : List Op) :
    let s := (start c first t dl).run x ops
    let s' := s.step x .go
    s.stage ≠ .over → s.pc = .arm →
    s'.pc = .sleep ∧ s'.c = s.c ∧
    (∀ u, x.timeout s'.c = some u → s'.sleepAt ≤ u) ∧ (∀ u, s'.rel = some u → s'.sleepAt ≤ u) ∧
    (∀ u, s'.stage = .handshake (some u) → s'.sleepAt ≤ u) ∧
    (x.timeout s'.c = some s'.sleepAt ∨ s'.rel = some s'.sleepAt ∨ s'.stage = .handshake (some s'.sleepAt) ∨
      (x.timeout s'.c = none ∧ s'.rel = none ∧ (∀ u, s'.stage ≠ .handshake (some u)) ∧
        s'.sleepAt ≤ s'.clock + 60000000)) := by
  intro s s' ho hp
  have hset : Set s := set_run x c first t dl ops
  have hs' : s' = s.go x := by show s.step x .go = _; simp only [St.step]; rw [if_neg ho]
  have key : s'.pc = .sleep ∧ s'.c = s.c ∧ s'.rel = s.rel ∧ s'.stage = s.stage ∧
      s'.cur = minOfSome (minOfSome (x.timeout s.c) s.rel) s.stage.deadline := by
    rw [hs']
    unfold St.go
    rw [hp]
    simp only
    split
    next h => exact ⟨rfl, rfl, rfl, rfl, h.symm⟩
    next h => exact ⟨rfl, rfl, rfl, rfl, rfl⟩
  have hset' : Set s' := by rw [hs']; exact tr_set x hset (go_tr x s ho)
  obtain ⟨k1, k2, k3, k4, k5⟩ := key
  refine ⟨k1, k2, ?_⟩
  rw [k2, k3, k4]
  have hdl : ∀ u, s.stage = .handshake (some u) ↔ s.stage.deadline = some u := by
    intro u; rcases s.stage with d | _ | _ <;> simp [Stage.deadline]
  simp only [hdl, ne_eq]
  rcases hc : s'.cur with _ | m
  · rw [hc] at k5
    obtain ⟨n1, n2, n3⟩ := min_none k5.symm
    simp only [n1, n2, n3]
    have := hset'.2.2 hc
    simp only [defaultSleep] at this
    simp
    exact this
  · rw [hc] at k5
    obtain ⟨n1, n2, n3, n4⟩ := min_le k5.symm
    rw [hset'.2.1 m hc]
    refine ⟨n1, n2, n3, ?_⟩
    rcases n4 with h | h | h
    · exact Or.inl h
    · exact Or.inr (Or.inl h)
    · exact Or.inr (Or.inr (Or.inl h))

/-- A timer which has run out is seen first, whatever else there is: the connection is told. -/
theorem timer_fires (x : Cx C) (s : St C) (ho : s.stage ≠ .over) (hp : s.pc = .sleep) (hd : s.sleepAt ≤ s.clock) :
    (s.step x .wake).c = x.onTimeout s.c s.clock ∧ (s.step x .wake).log = s.log ++ [.onTimeout s.clock] := by
  have : s.step x .wake = s.wake x := by simp only [St.step]; rw [if_neg ho, if_pos hp]
  rw [this]
  unfold St.wake
  rw [if_pos hd]
  exact ⟨rfl, rfl⟩

/-- A connection that is not disturbed by being asked for handshake packets. -/
def Quiet (x : Cx C) : Prop :=
  ∀ c t, x.act c = false → (x.gather c t).2.pkts = 0 →
    x.timeout (x.gather c t).1 = x.timeout c ∧ (x.gather c t).2.release = none

def Armed (x : Cx C) (s : St C) : Prop :=
  Set s ∧ (s.stage = .over ∨ (s.pc = .sleep → s.cur = minOfSome (minOfSome (x.timeout s.c) s.rel) s.stage.deadline))

theorem tr_armed (x : Cx C) (hq : Quiet x) {s s' : St C} (ho : s.stage ≠ .over) (hs : Armed x s) (h : Tr x s s') :
    Armed x s' := by
  refine ⟨tr_set x hs.1 h, ?_⟩
  have fin : ∀ (y : St C) (e : End) (P : Prop), (y.finish x e).stage = .over ∨ P := by
    intro y e P
    obtain ⟨c, l, h1, h2⟩ := finish_eq x y e
    rw [h1]; exact Or.inl rfl
  have h2 := hs.2.resolve_left ho
  cases h with
  | recv s1 p c hpc hn =>
    right
    rcases next_eq hn with ⟨_, rfl⟩ | ⟨_, q, _, rfl⟩ <;> simp [hpc]
  | armOld hpc hd => right; intro _; exact hd.symm
  | armNew d hpc hd => right; intro _; exact hd
  | stay => exact Or.inr h2
  | poll hpc hd hqq ha hk =>
    right
    intro _
    obtain ⟨a, b⟩ := hq s.c s.clock ha hk
    simp only [St.took, a, b]
    simpa using h2 hpc
  | _ =>
    first
    | exact fin _ _ _
    | (right; intro hp; simp_all [St.took]; done)

/-- The task never sleeps through a deadline of the connection, of the pacer or of the handshake:
at any time while it sleeps, the timer is set no later than any of them. (Partial: for connections
which are not changed by the question whether there is a handshake packet to send, which the task
asks again and again as long as the application does not act.) -/
theorem asleep_partial (x : Cx C) (hq : Quiet x) (c : C) (first : Option Incoming) (t : Nat)
    (dl : Option Nat) (ops : List Op) :
    let s := (start c first t dl).run x ops
    s.stage ≠ .over → s.pc = .sleep →
    (∀ u, x.timeout s.c = some u → s.sleepAt ≤ u) ∧ (∀ u, s.rel = some u → s.sleepAt ≤ u) ∧
    (∀ u, s.stage = .handshake (some u) → s.sleepAt ≤ u) := by
  intro s ho hp
  have h : Armed x s := run_inv x (Armed x) (fun _ _ ho hs h => tr_armed x hq ho hs h)
    (fun _ _ h => h)
    (fun s d h => ⟨⟨by have := h.1.1; simp only; omega, h.1.2.1, fun hc => by have := h.1.2.2 hc; simp only; omega⟩, h.2⟩)
    ops (start c first t dl) ⟨set_run x c first t dl [], by simp [start]⟩
  have hc := h.2.resolve_left ho hp
  have hdl : ∀ u, s.stage = .handshake (some u) ↔ s.stage.deadline = some u := by
    intro u; rcases s.stage with d | _ | _ <;> simp [Stage.deadline]
  simp only [hdl]
  rcases hm : s.cur with _ | m
  · rw [hm] at hc
    obtain ⟨n1, n2, n3⟩ := min_none hc.symm
    simp [n1, n2, n3]
  · rw [hm] at hc
    obtain ⟨n1, n2, n3, _⟩ := min_le hc.symm
    rw [h.1.2.1 m hm]
    exact ⟨n1, n2, n3⟩

/-! ## The time for the handshake -/

def Due (dl : Option Nat) (s : St C) : Prop :=
  Set s ∧ (∀ d, s.stage = .handshake d → d = dl) ∧
  (∀ d, s.pc = .sleep → s.stage = .handshake (some d) → s.sleepAt ≤ d) ∧
  (.ended .timeout ∈ s.log → ∃ d, dl = some d ∧ d ≤ s.clock)

theorem tr_due (x : Cx C) (dl : Option Nat) {s s' : St C} (hs : Due dl s) (h : Tr x s s') : Due dl s' := by
  obtain ⟨h0, h1, h2, h3⟩ := hs
  refine ⟨tr_set x h0 h, ?_⟩
  have fin : ∀ (y : St C) (e : End), y.clock = s.clock →
      (Ev.ended .timeout ∈ y.log → ∃ d, dl = some d ∧ d ≤ s.clock) →
      (e = .timeout → ∃ d, dl = some d ∧ d ≤ s.clock) →
      (∀ d, (y.finish x e).stage = .handshake d → d = dl) ∧
      (∀ d, (y.finish x e).pc = .sleep → (y.finish x e).stage = .handshake (some d) → (y.finish x e).sleepAt ≤ d) ∧
      (.ended .timeout ∈ (y.finish x e).log → ∃ d, dl = some d ∧ d ≤ (y.finish x e).clock) := by
    intro y e hy hl he
    obtain ⟨c, l, e1, e2⟩ := finish_eq x y e
    rw [e1]
    refine ⟨by simp, by simp, ?_⟩
    intro hm
    simp only [List.mem_append, List.mem_singleton, Ev.ended.injEq] at hm
    simp only [hy]
    rcases hm with (hm | hm) | hm
    · exact hl hm
    · rcases e2 with rfl | rfl <;> simp at hm
    · exact he hm.symm
  have nocalls : ∀ {l : List Ev}, Calls l → Ev.ended .timeout ∉ l := by
    intro l hl; rcases hl with rfl | rfl | rfl | rfl <;> simp
  have hset' := tr_set x h0 h
  cases h with
  | recv s1 p c hpc hn =>
    rcases next_eq hn with ⟨_, rfl⟩ | ⟨_, q, _, rfl⟩ <;>
      exact ⟨h1, by simp [hpc], by simpa using h3⟩
  | recvBad s1 p c l hpc hn hl =>
    rcases next_eq hn with ⟨_, rfl⟩ | ⟨_, q, _, rfl⟩ <;>
      exact fin _ _ rfl (by simpa using h3) (by simp)
  | read c l hpc hl =>
    refine ⟨h1, by simp, ?_⟩
    intro hm
    simp only [List.mem_append] at hm
    exact h3 (hm.resolve_right (nocalls hl))
  | readBad c l hpc hr hl =>
    refine fin _ _ rfl ?_ (by simp)
    intro hm
    simp only [List.mem_append] at hm
    exact h3 (hm.resolve_right (nocalls hl))
  | closed => exact fin _ _ rfl h3 (by split <;> simp)
  | shook c g c' l hpc hr hp hk hg he hl =>
    refine ⟨by simp, by simp, ?_⟩
    intro hm
    simp [nocalls hl] at hm
    exact h3 hm
  | refused c g c' => exact fin _ _ rfl (by simpa using h3) (by simp)
  | shookBad c g c' l hpc hr hp hk hg he hl =>
    refine fin _ _ rfl ?_ (by simp)
    intro hm
    simp [nocalls hl] at hm
    exact h3 hm
  | armOld hpc hd =>
    refine ⟨h1, ?_, h3⟩
    intro d _ hsd
    simp only at hsd
    rw [hsd] at hd
    rcases hc : s.cur with _ | m
    · rw [hc] at hd
      have := (min_none hd).2.2
      simp [Stage.deadline] at this
    · rw [hc] at hd
      have := (min_le hd).2.2.1 d (by simp [Stage.deadline])
      have e := h0.2.1 m hc
      simp only
      omega
  | armNew d' hpc hd =>
    refine ⟨h1, ?_, h3⟩
    intro d _ hsd
    simp only at hsd
    rw [hsd] at hd
    rcases d' with _ | m
    · have := (min_none hd.symm).2.2
      simp [Stage.deadline] at this
    · have := (min_le hd.symm).2.2.1 d (by simp [Stage.deadline])
      simpa using this
  | sent c g hpc =>
    exact ⟨h1, fun d hp => by simp [St.took, hpc] at hp, by simpa [St.took] using h3⟩
  | expired d hpc hst hd =>
    exact fin _ _ rfl h3 (fun _ => ⟨d, (h1 _ hst).symm, hd⟩)
  | _ =>
    first
    | exact fin _ _ rfl h3 (by simp)
    | exact ⟨h1, h2, h3⟩
    | exact ⟨h1, by simp_all, by simpa [St.took] using h3⟩
    | exact ⟨h1, by simp_all [St.took], by simpa [St.took] using h3⟩

theorem due_run (x : Cx C) (c : C) (first : Option Incoming) (t : Nat) (dl : Option Nat) (ops : List Op) :
    Due dl ((start c first t dl).run x ops) :=
  run_inv x (Due dl) (fun _ _ _ hs h => tr_due x dl hs h) (fun _ _ h => h)
    (fun s d h => ⟨⟨by have := h.1.1; simp only; omega, h.1.2.1, fun hc => by have := h.1.2.2 hc; simp only; omega⟩,
      h.2.1, h.2.2.1, fun hm => by
        obtain ⟨u, a, b⟩ := h.2.2.2 hm
        exact ⟨u, a, by simp only; omega⟩⟩)
    ops _ ⟨set_run x c first t dl [], by simp [start], by simp [start], by simp [start]⟩

/-- A handshake that is not done in its time is given up: the next time the task wakes, whatever
wakes it, the connection is closed, and the result is the timeout. -/
theorem gives_up (x : Cx C) (c : C) (first : Option Incoming) (t : Nat) (dl : Option Nat) (ops : List Op) (d : Nat) :
    let s := (start c first t dl).run x ops
    s.stage = .handshake (some d) → s.pc = .sleep → d ≤ s.clock →
    ∃ l, ((s.step x .wake).step x .go).log = s.log ++ [.onTimeout s.clock] ++ l ++ [.ended .timeout] ∧
      (l = [] ∨ l = [.onClose .timeout]) ∧ ((s.step x .wake).step x .go).stage = .over := by
  intro s hst hp hd
  have hdue := due_run x c first t dl ops
  have hsl : s.sleepAt ≤ s.clock := Nat.le_trans (hdue.2.2.1 d hp hst) hd
  have ho : s.stage ≠ .over := by rw [hst]; simp
  have e1 : s.step x .wake = s.wake x := by simp only [St.step]; rw [if_neg ho, if_pos hp]
  have e2 : s.wake x = { s with
      c := x.onTimeout s.c s.clock, rel := none, cur := none, sleepAt := s.now + defaultSleep,
      pc := .post, log := s.log ++ [.onTimeout s.clock] } := by
    unfold St.wake; rw [if_pos hsl]
  rw [e1, e2]
  generalize hy : ({ s with
      c := x.onTimeout s.c s.clock, rel := none, cur := none, sleepAt := s.now + defaultSleep,
      pc := .post, log := s.log ++ [.onTimeout s.clock] } : St C) = y
  have y1 : y.stage = .handshake (some d) := by rw [← hy]; exact hst
  have y2 : y.pc = .post := by rw [← hy]
  have y3 : y.log = s.log ++ [.onTimeout s.clock] := by rw [← hy]
  have y4 : y.clock = s.clock := by rw [← hy]
  have e3 : y.step x .go = ({ y with c := x.close y.c } : St C).finish x .timeout := by
    simp only [St.step]
    rw [if_neg (by rw [y1]; simp)]
    unfold St.go
    rw [y2]
    simp only
    split
    next d' hd' =>
      rw [y1] at hd'
      simp at hd'
      rw [if_pos (by omega)]
    next h => exact absurd y1 (h d)
  rw [e3]
  obtain ⟨c', l, f1, f2⟩ := finish_eq x ({ y with c := x.close y.c } : St C) .timeout
  rw [f1]
  refine ⟨l, ?_, f2, rfl⟩
  simp only [y3]

/-- It is not given up before, and never when no time was set. -/
theorem not_before (x : Cx C) (c : C) (first : Option Incoming) (t : Nat) (dl : Option Nat) (ops : List Op) :
    let s := (start c first t dl).run x ops
    .ended .timeout ∈ s.log → ∃ d, dl = some d ∧ d ≤ s.clock :=
  (due_run x c first t dl ops).2.2.2

/-! ## When the application is told -/

def Told (x : Cx C) (s : St C) : Prop := Ev.established false ∉ s.log

theorem tr_told (x : Cx C) (he : ∀ c, x.early c = false) {s s' : St C} (hs : Told x s) (h : Tr x s s') :
    Told x s' := by
  have fin : ∀ (y : St C) (e : End), Told x y → Told x (y.finish x e) := by
    intro y e hy
    obtain ⟨c, l, h1, h2⟩ := finish_eq x y e
    rw [h1]
    unfold Told at hy ⊢
    rcases h2 with rfl | rfl <;> simp [hy]
  have nocalls : ∀ {l : List Ev}, Calls l → Ev.established false ∉ l := by
    intro l hl; rcases hl with rfl | rfl | rfl | rfl <;> simp
  unfold Told at hs
  have est : ∀ c, x.established c = true ∨ x.early c = true → x.established c = true := by
    intro c h; simpa [he c] using h
  cases h with
  | recv s1 p c hpc hn =>
    rcases next_eq hn with ⟨_, rfl⟩ | ⟨_, q, _, rfl⟩ <;> simp [Told, hs]
  | recvBad s1 p c l hpc hn hl =>
    apply fin
    rcases next_eq hn with ⟨_, rfl⟩ | ⟨_, q, _, rfl⟩ <;> simp [Told, hs]
  | read c l hpc hl => simp [Told, hs, nocalls hl]
  | readBad c l hpc hr hl => apply fin; simp [Told, hs, nocalls hl]
  | refused c g c' hpc hr hp hk hg h => apply fin; simp [Told, hs, est c h]
  | shook c g c' l hpc hr hp hk hg h hl => simp [Told, hs, nocalls hl, est c h]
  | shookBad c g c' l hpc hr hp hk hg h hl => apply fin; simp [Told, hs, nocalls hl, est c h]
  | _ =>
    first
    | exact hs
    | (apply fin; exact hs)
    | (simp [Told, hs, St.took]; done)

/-- The application is told of the connection only when the handshake is complete. (Partial:
without early data.) -/
theorem told_partial (x : Cx C) (he : ∀ c, x.early c = false) (c : C) (first : Option Incoming) (t : Nat)
    (dl : Option Nat) (ops : List Op) : .established false ∉ ((start c first t dl).run x ops).log :=
  run_inv x (Told x) (fun _ _ _ hs h => tr_told x he hs h) (fun _ _ h => h) (fun _ _ h => h) ops _
    (by simp [Told, start])

/-! ## Connections -/

/-- A connection for examples: the packets it was given, in order (`[0]` is early data, `[1]`
completes the handshake, `[9]` is an error), whether it has been closed. -/
structure Toy where
  got : List Bytes := []
  shut : Bool := false
  deriving DecidableEq, Repr

/-- Every packet is answered by one; the pacer holds back what follows until `rel`. -/
def toy (release : Option Nat) (onEst act : Bool) : Cx Toy where
  recv c b := ({ c with got := c.got ++ [b] }, b != [9])
  established c := decide ([1] ∈ c.got)
  early c := decide ([0] ∈ c.got)
  closed c := c.shut
  timeout _ := none
  onTimeout c _ := c
  gather c _ := (c, { pkts := 0, pending := false, release := release })
  close c := { c with shut := true }
  act c := act && decide (c.got ≠ [])
  onEstablished c := (c, onEst)
  reads c := (c, true)
  writes c := (c, true)
  wait c := (c, true)
  onClose c := c

def go (n : Nat) : List Op := List.replicate n .go

/-- Three datagrams in two buffers, the handshake, and what the application is asked. -/
example :
    ((start { } (some ⟨[7, 1], some 1⟩) 100 (some 5000)).run (toy none true true)
      (go 5 ++ [.arrive ⟨[5], none⟩] ++ go 12)).log =
    [.dgram [7], .dgram [1], .look, .sent 0, .established true, .forget, .reads, .writes,
      .dgram [5], .look, .reads, .writes, .sent 0] := by decide +kernel

/-- The handshake is not completed: given up at its time. -/
example :
    let s := (start { } (some ⟨[7], none⟩) 100 (some 5000)).run (toy none true false) (go 9 ++ [.pass 4900])
    s.pc = .sleep ∧ s.sleepAt = 5000 ∧
    (s.run (toy none true false) [.arrive ⟨[1], none⟩, .wake, .go]).log =
      [.dgram [7], .look, .sent 0, .onTimeout 5000, .ended .timeout] := by decide +kernel

/-- Early data: the application is told that the handshake is complete though it is not, the router
forgets the connection ID under which the client goes on sending its first packets, and the time for the
handshake is no longer enforced. -/
theorem early_false :
    let s := (start { } (some ⟨[0], none⟩) 100 (some 5000)).run (toy none true true)
      (go 12 ++ [.pass 70000000, .wake] ++ go 9)
    [.dgram [0], .look, .sent 0, .established false, .forget] <+: s.log ∧ s.stage = .running ∧
    5000 < s.clock := by decide +kernel

/-- The handshake is completed in its time, but the pacer holds back: given up all the same. -/
theorem paced_false :
    let s := (start { } (some ⟨[7], none⟩) 100 (some 5000)).run (toy (some 9000) true false)
      (go 9 ++ [.pass 100, .arrive ⟨[1], none⟩, .wake] ++ go 10)
    (toy (some 9000) true false).established s.c = true ∧ s.clock = 200 ∧ s.pc = .sleep ∧
    (s.run (toy (some 9000) true false) [.pass 4800, .wake, .go]).log =
      s.log ++ [.onTimeout 5000, .ended .timeout] := by decide +kernel

/-- An application which refuses the connection is told at its end that there was no error. -/
theorem result_false :
    ((start { } (some ⟨[1], none⟩) 100 none).run (toy none false true) (go 9)).log =
      [.dgram [1], .look, .sent 0, .established true, .onClose .ok, .ended .ok] := by decide +kernel

/-- A connection which is held back by the pacer when it is asked for handshake packets. -/
def held : Cx Toy := { toy none true false with
  gather := fun c t => (c, { pkts := 0, pending := false, release := if t < 1000 then none else some (t + 800) }) }

/-- The time at which the pacer lets packets go is noted while the task sleeps, and the timer is not set. -/
theorem asleep_false :
    let s := (start { } (some ⟨[7], none⟩) 100 none).run held (go 9 ++ [.pass 1000, .wake])
    s.stage = .handshake none ∧ s.pc = .sleep ∧ s.rel = some 1900 ∧ s.sleepAt = 60000100 := by decide +kernel

/-- An error of the connection ends the work; what came after is not looked at. -/
example :
    ((start { } (some ⟨[7, 9, 5], some 1⟩) 100 none).run (toy none true true)
      ([.arrive ⟨[4], none⟩] ++ go 9)).log = [.dgram [7], .dgram [9], .onClose .recv, .ended .recv] := by
  decide +kernel

end Verif.Props.C176
