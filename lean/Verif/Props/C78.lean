import Verif.Cid.Inv

/-!
C78: two endpoints following this code never close the connection over each other's
connection ID frames, whatever the network loses, repeats or reorders.

False in four ways, given below with witnesses. What holds is that the receiver of
connection IDs never runs out of room, as long as its application retires none itself.
-/

namespace Verif.Props.C78
open Verif Verif.Cid

/-- The issuer `a`, the receiver `b`, and every frame ever sent. The network may deliver
any of them any number of times. -/
structure Net where
  a : Ids
  b : Ids
  news : List NewFrame := []
  retires : List Nat := []
  /-- The connection IDs `a` ever used. -/
  issued : List Bytes
  deriving DecidableEq, Repr

def init (limit : Nat) (scid other : Bytes) (atok btok : Option Nat) : Net :=
  { a := (new 2 scid 0 atok).setInitialDcid other none (some 0)
    b := (new limit other 0 none).setInitialDcid scid btok (some 0)
    issued := [scid] }

/-- What can happen, except that the application of `b` retires connection IDs. -/
inductive Reach (limit : Nat) (scid other : Bytes) (atok btok : Option Nat) : Net → Prop where
  | init : Reach limit scid other atok btok (init limit scid other atok btok)
  | setLimit {n} : Reach limit scid other atok btok n → Reach limit scid other atok btok { n with a := n.a.setSourceLimit (atLeastTwo limit) }
  | issue {n} (cid tok r) : Reach limit scid other atok btok n → cid ∉ n.issued →
      Reach limit scid other atok btok { n with a := (n.a.newScid cid (some tok) true none r).2, issued := cid :: n.issued }
  | sendNew {n} (f) : Reach limit scid other atok btok n → n.a.sendNew.1 = .ok (some f) →
      Reach limit scid other atok btok { n with a := n.a.sendNew.2, news := f :: n.news }
  | lostNew {n} (f) : Reach limit scid other atok btok n → f ∈ n.news → Reach limit scid other atok btok { n with a := n.a.markAdvertise f.seq true }
  | deliverNew {n} (f) : Reach limit scid other atok btok n → f ∈ n.news → (n.b.newDcid f.cid f.seq f.token f.retirePriorTo).1 = .ok () →
      Reach limit scid other atok btok { n with b := (n.b.newDcid f.cid f.seq f.token f.retirePriorTo).2.2 }
  | sendRetire {n} (seq u m) : Reach limit scid other atok btok n → (n.b.sendRetire seq u).1 = some m →
      Reach limit scid other atok btok { n with b := (n.b.sendRetire seq u).2, retires := m :: n.retires }
  | lostRetire {n} (seq) : Reach limit scid other atok btok n → seq ∈ n.retires →
      Reach limit scid other atok btok { n with b := (n.b.markRetire seq true).2 }
  | deliverRetire {n} (seq d) : Reach limit scid other atok btok n → seq ∈ n.retires →
      Reach limit scid other atok btok { n with a := (n.a.retireScid seq d).2 }
  | link {n} (seq p) : Reach limit scid other atok btok n → Reach limit scid other atok btok { n with b := (n.b.linkDcid seq p).2 }

/-- Number, connection ID and token agree. The first one has no frame and so no token. -/
def Match (x y : Entry) : Prop := x.seq = y.seq ∧ x.cid = y.cid ∧ (y.seq ≠ 0 → x.token = y.token)

structure Good (n : Net) (L : Nat) : Prop where
  src : ∃ out, SInv n.a L out
  dst : DInv n.b L
  zero : n.b.zeroLenDcid = false
  /-- `a` still has every number `b` was not asked to retire. -/
  held : ∀ x, n.b.peerRetirePriorTo ≤ x → x < n.a.nextScidSeq → x ∈ keys n.a.scids.inner
  window : ∀ f ∈ n.news, f.seq < L + n.b.peerRetirePriorTo ∨ f.seq < L + f.retirePriorTo
  room : ∀ x ∈ keys n.b.dcids.inner, x < L + n.b.peerRetirePriorTo
  below : ∀ x ∈ n.b.retire.inner, x < n.b.peerRetirePriorTo
  sent : ∀ x ∈ n.retires, x < n.b.peerRetirePriorTo
  known : ∀ f ∈ n.news, f.seq ≠ 0 ∧ f.seq < n.a.nextScidSeq ∧ f.cid ∈ n.issued
  mine : ∀ e ∈ n.a.scids.inner, e.cid ∈ n.issued
  frames : ∀ f ∈ n.news, ∀ e ∈ n.a.scids.inner, (f.seq = e.seq ∨ f.cid = e.cid) → f.seq = e.seq ∧ f.cid = e.cid ∧ e.token = some f.token
  stored : ∀ e ∈ n.b.dcids.inner, ∃ x ∈ n.a.scids.inner, Match x e
  queue : ∀ x ∈ n.a.advertise, x ≠ 0
  next : n.a.nextScidSeq ≠ 0

/-! ### counting -/

theorem length_le_of_subset {l l' : List Nat} (hn : l.Nodup) (h : l ⊆ l') : l.length ≤ l'.length := by
  induction l generalizing l' with
  | nil => simp
  | cons x l ih =>
    rw [List.nodup_cons] at hn
    have hx : x ∈ l' := h List.mem_cons_self
    have := ih (l' := l'.erase x) hn.2 (by
      intro y hy
      have : y ≠ x := fun hh => hn.1 (hh ▸ hy)
      exact (List.mem_erase_of_ne this).mpr (h (List.mem_cons_of_mem _ hy)))
    rw [List.length_erase_of_mem hx] at this
    have hp := List.length_pos_of_mem hx
    simp only [List.length_cons]
    omega

/-- Numbers in a window of `L` are at most `L`. -/
theorem window_count {l : List Nat} (hn : l.Nodup) (r L : Nat) (h : ∀ x ∈ l, r ≤ x ∧ x < r + L) : l.length ≤ L := by
  have hsub : l ⊆ List.range' r L := by
    intro x hx
    rw [List.mem_range'_1]
    exact h x hx
  have := length_le_of_subset hn hsub
  simpa using this

/-- And `L` numbers in a row that are all present are at most as many as are present. -/
theorem range_count {l : List Nat} (r m : Nat) (h : ∀ x, r ≤ x → x < m → x ∈ l) : m - r ≤ (l.filter fun x => decide (r ≤ x)).length := by
  have hn : (List.range' r (m - r)).Nodup := List.nodup_range'
  have hsub : List.range' r (m - r) ⊆ l.filter fun x => decide (r ≤ x) := by
    intro x hx
    rw [List.mem_range'_1] at hx
    rw [List.mem_filter]
    exact ⟨h x hx.1 (by omega), by simpa using hx.1⟩
  have := length_le_of_subset hn hsub
  simpa using this

/-! ### every event keeps `Good` -/

theorem Good.init (limit : Nat) (scid other : Bytes) (atok btok : Option Nat) (h : scid ≠ []) :
    Good (init limit scid other atok btok) (atLeastTwo limit) := by
  have h2 : 2 ≤ atLeastTwo limit := by unfold atLeastTwo; split <;> omega
  have hi := Inv.start limit other scid none btok
  have hj := Inv.start 2 scid other atok none
  obtain ⟨out, hs, _⟩ := hj.src
  refine { src := ⟨out, ?_⟩, dst := ?_, zero := ?_, held := ?_, window := ?_, room := ?_, below := ?_, sent := ?_, known := ?_, mine := ?_, frames := ?_, stored := ?_, queue := ?_, next := ?_ }
  · exact { nodup := hs.nodup, lt := hs.lt, cids := hs.cids, len := hs.len, cap := Nat.le_trans hs.cap (by simp only [start]; omega), active := Nat.le_trans hs.active h2,
            limit := Nat.le_trans hs.limit h2, two := hs.two, ne := hs.ne, rpt := hs.rpt, out := hs.out }
  · exact hi.dst
  · simp [C78.init, new, Ids.setInitialDcid, h]
  · intro x _ hx
    simp only [C78.init, new, Ids.setInitialDcid] at hx ⊢
    have : x = 0 := by omega
    simp [this]
  · intro f hf; cases hf
  · intro x hx
    simp only [C78.init, new, Ids.setInitialDcid, keys, List.map_cons, List.map_nil, List.mem_singleton] at hx
    omega
  · intro x hx; cases hx
  · intro x hx; cases hx
  · intro f hf; cases hf
  · intro e he
    simp only [C78.init, new, Ids.setInitialDcid, List.mem_singleton] at he ⊢
    rw [he]
  · intro f hf; cases hf
  · intro e he
    simp only [C78.init, new, Ids.setInitialDcid, List.mem_singleton] at he ⊢
    refine ⟨_, rfl, ?_⟩
    rw [he]
    exact ⟨rfl, rfl, fun hh => absurd rfl hh⟩
  · intro x hx; cases hx
  · simp [C78.init, new, Ids.setInitialDcid]

/-- Events at `a` that leave the issued connection IDs alone. -/
theorem Good.quietA {n : Net} {L : Nat} (h : Good n L) {a' : Ids} (h1 : a'.scids.inner = n.a.scids.inner)
    (h2 : a'.nextScidSeq = n.a.nextScidSeq) (h3 : ∃ out, SInv a' L out) (h4 : ∀ x ∈ a'.advertise, x ≠ 0) :
    Good { n with a := a' } L where
  src := h3
  dst := h.dst
  zero := h.zero
  held := by dsimp only; rw [h1, h2]; exact h.held
  window := h.window
  room := h.room
  below := h.below
  sent := h.sent
  known := by dsimp only; rw [h2]; exact h.known
  mine := by dsimp only; rw [h1]; exact h.mine
  frames := by dsimp only; rw [h1]; exact h.frames
  stored := by dsimp only; rw [h1]; exact h.stored
  queue := h4
  next := by dsimp only; rw [h2]; exact h.next

/-- More connection IDs used up by the application. -/
theorem Good.moreIssued {n : Net} {L : Nat} (h : Good n L) (cid : Bytes) : Good { n with issued := cid :: n.issued } L where
  src := h.src
  dst := h.dst
  zero := h.zero
  held := h.held
  window := h.window
  room := h.room
  below := h.below
  sent := h.sent
  known := fun f hf => ⟨(h.known f hf).1, (h.known f hf).2.1, List.mem_cons_of_mem _ (h.known f hf).2.2⟩
  mine := fun e he => List.mem_cons_of_mem _ (h.mine e he)
  frames := h.frames
  stored := h.stored
  queue := h.queue
  next := h.next

theorem Good.newScidCont {n : Net} {L : Nat} (h : Good n L) (cid : Bytes) (tok r : Nat) (hf : cid ∉ n.issued)
    (hs : ∃ out, SInv ({ n.a with retirePriorTo := r }.newScidCont cid (some tok) true none).2 L out) :
    Good { n with a := ({ n.a with retirePriorTo := r }.newScidCont cid (some tok) true none).2, issued := cid :: n.issued } L := by
  obtain ⟨out0, hs0⟩ := h.src
  rcases newScidCont_cases { n.a with retirePriorTo := r } cid (some tok) true none with ⟨x, hx, _⟩ | ⟨d, hx, hd, _, _⟩
  · rw [hx] at hs ⊢
    exact (h.quietA (a' := { n.a with retirePriorTo := r }) rfl rfl hs h.queue).moreIssued cid
  · rw [hx] at hs ⊢
    dsimp only at hd hs ⊢
    have hn : n.a.nextScidSeq ∉ keys n.a.scids.inner := fun hm => Nat.lt_irrefl _ (hs0.lt _ hm)
    obtain ⟨hd, _⟩ := insert_new hn hd
    subst hd
    unfold Ids.markAdvertise at hs ⊢
    rw [if_pos rfl] at hs ⊢
    refine { src := hs, dst := h.dst, zero := h.zero, held := ?_, window := h.window, room := h.room, below := h.below, sent := h.sent, known := ?_, mine := ?_, frames := ?_, stored := ?_, queue := ?_, next := ?_ }
    · dsimp only
      intro x hx hlt
      rw [keys, List.map_append, List.mem_append]
      by_cases hxn : x = n.a.nextScidSeq
      · exact Or.inr (by simp [hxn])
      · exact Or.inl (h.held x hx (by omega))
    · dsimp only
      intro f hf
      obtain ⟨k1, k2, k3⟩ := h.known f hf
      exact ⟨k1, by omega, List.mem_cons_of_mem _ k3⟩
    · dsimp only
      intro e he
      rcases List.mem_append.mp he with he | he
      · exact List.mem_cons_of_mem _ (h.mine e he)
      · rw [List.mem_singleton] at he; rw [he]; exact List.mem_cons_self
    · dsimp only
      intro f hff e he hm
      rcases List.mem_append.mp he with he | he
      · exact h.frames f hff e he hm
      · rw [List.mem_singleton] at he
        obtain ⟨k1, k2, k3⟩ := h.known f hff
        rw [he] at hm
        dsimp only at hm
        rcases hm with hm | hm
        · omega
        · exact absurd (hm ▸ k3) hf
    · dsimp only
      intro e he
      obtain ⟨x, hx, hm⟩ := h.stored e he
      exact ⟨x, List.mem_append_left _ hx, hm⟩
    · dsimp only
      intro x hx
      rcases List.mem_append.mp hx with hx | hx
      · exact h.queue x hx
      · rw [List.mem_singleton] at hx; rw [hx]; exact h.next
    · dsimp only; omega

theorem Good.issue {n : Net} {L : Nat} (h : Good n L) (cid : Bytes) (tok : Nat) (r : Bool) (hf : cid ∉ n.issued) :
    Good { n with a := (n.a.newScid cid (some tok) true none r).2, issued := cid :: n.issued } L := by
  obtain ⟨out, hs⟩ := h.src
  have hs := hs.newScid cid (some tok) true none r
  revert hs
  unfold Ids.newScid
  split
  · intro _; exact h.moreIssued cid
  split
  · split
    · intro _; exact h.moreIssued cid
    split
    · intro _; exact h.moreIssued cid
    · intro hs; exact h.newScidCont cid tok _ hf ⟨_, hs⟩
  · intro hs; exact h.newScidCont cid tok n.a.retirePriorTo hf ⟨_, hs⟩

theorem sendNew_ok {s : Ids} {f : NewFrame} (h : s.sendNew.1 = .ok (some f)) :
    f.seq ∈ s.advertise ∧ f.retirePriorTo = s.retirePriorTo ∧
    (∃ e ∈ s.scids.inner, e.seq = f.seq ∧ e.cid = f.cid ∧ e.token = some f.token) ∧ s.sendNew.2 = s.markAdvertise f.seq false := by
  unfold Ids.sendNew at h ⊢
  split at h
  · cases h
  · rename_i n hn
    split at h
    · cases h
    · rename_i g hg
      simp only [Except.ok.injEq, Option.some.injEq] at h
      subst h
      have hfr := hg
      unfold Ids.frameFor at hg
      split at hg
      · cases hg
      · rename_i e he
        split at hg
        · cases hg
        · rename_i t ht
          cases hg
          obtain ⟨h1, h2⟩ := find_seq_some he
          exact ⟨List.mem_of_mem_head? hn, rfl, ⟨e, h1, h2, rfl, ht⟩, rfl⟩

theorem cid_inj {l : List Entry} (hn : (l.map (·.cid)).Nodup) {x y : Entry} (hx : x ∈ l) (hy : y ∈ l) (h : x.cid = y.cid) : x = y := by
  induction l with
  | nil => cases hx
  | cons z l ih =>
    rw [List.map_cons, List.nodup_cons] at hn
    rcases List.mem_cons.mp hx with hx | hx <;> rcases List.mem_cons.mp hy with hy | hy
    · rw [hx, hy]
    · exact absurd (List.mem_map.mpr ⟨y, hy, by rw [← h, hx]⟩) hn.1
    · exact absurd (List.mem_map.mpr ⟨x, hx, by rw [h, hy]⟩) hn.1
    · exact ih hn.2 hx hy

theorem Good.sendNew {n : Net} {L : Nat} (h : Good n L) (f : NewFrame) (hf : n.a.sendNew.1 = .ok (some f)) :
    Good { n with a := n.a.sendNew.2, news := f :: n.news } L := by
  obtain ⟨out, hs⟩ := h.src
  obtain ⟨f1, f2, ⟨e, he, e1, e2, e3⟩, f4⟩ := sendNew_ok hf
  rw [f4]
  obtain ⟨m1, m2, m3, m4, _, _, _⟩ := markAdvertise_scids n.a f.seq false
  have hq : Good { n with a := n.a.markAdvertise f.seq false } L := by
    apply h.quietA (by rw [m1]) m2 ⟨out, hs.congr m1 m2 m3 m4⟩
    unfold Ids.markAdvertise
    simp only [Bool.false_eq_true, if_false]
    intro x hx
    exact h.queue x (List.mem_of_mem_erase hx)
  have hlt : f.seq < n.a.nextScidSeq := by
    have := hs.lt e.seq (List.mem_map.mpr ⟨e, he, rfl⟩)
    omega
  refine { src := hq.src, dst := hq.dst, zero := hq.zero, held := hq.held, window := ?_, room := hq.room, below := hq.below, sent := hq.sent, known := ?_, mine := hq.mine, frames := ?_, stored := hq.stored, queue := hq.queue, next := hq.next }
  · intro g hg
    rcases List.mem_cons.mp hg with hg | hg
    · subst hg
      dsimp only
      -- every number from the larger threshold on is held, and at most `L` are
      have hc := range_count (l := keys n.a.scids.inner) (max n.b.peerRetirePriorTo n.a.retirePriorTo) n.a.nextScidSeq
        (fun x hx hlt => h.held x (Nat.le_trans (Nat.le_max_left _ _) hx) hlt)
      have ha := hs.active
      have hb := above_le n.a.scids.inner (Nat.le_max_right n.b.peerRetirePriorTo n.a.retirePriorTo)
      rw [above_length] at hb
      rw [f2]
      rcases Nat.le_total n.b.peerRetirePriorTo n.a.retirePriorTo with hle | hle
      · right
        have : max n.b.peerRetirePriorTo n.a.retirePriorTo = n.a.retirePriorTo := Nat.max_eq_right hle
        rw [this] at hc hb
        omega
      · left
        have : max n.b.peerRetirePriorTo n.a.retirePriorTo = n.b.peerRetirePriorTo := Nat.max_eq_left hle
        rw [this] at hc hb
        omega
    · exact h.window g hg
  · intro g hg
    rcases List.mem_cons.mp hg with hg | hg
    · subst hg
      dsimp only
      rw [m2]
      exact ⟨h.queue _ f1, hlt, by rw [← e2]; exact h.mine e he⟩
    · dsimp only
      rw [m2]
      exact h.known g hg
  · intro g hg x hx
    dsimp only at hx
    rw [m1] at hx
    rcases List.mem_cons.mp hg with hg | hg
    · subst hg
      rintro (hm | hm)
      · have : e = x := eq_of_seq hs.nodup he hx (by rw [e1, hm])
        subst this
        exact ⟨e1.symm, e2.symm, e3⟩
      · have : e = x := cid_inj hs.cids he hx (by rw [e2, hm])
        subst this
        exact ⟨e1.symm, e2.symm, e3⟩
    · exact h.frames g hg x hx

theorem Good.lostNew {n : Net} {L : Nat} (h : Good n L) (f : NewFrame) (hf : f ∈ n.news) :
    Good { n with a := n.a.markAdvertise f.seq true } L := by
  obtain ⟨out, hs⟩ := h.src
  obtain ⟨m1, m2, m3, m4, _, _, _⟩ := markAdvertise_scids n.a f.seq true
  apply h.quietA (by rw [m1]) m2 ⟨out, hs.congr m1 m2 m3 m4⟩
  unfold Ids.markAdvertise
  rw [if_pos rfl]
  intro x hx
  rcases List.mem_append.mp hx with hx | hx
  · exact h.queue x hx
  · rw [List.mem_singleton] at hx; rw [hx]; exact (h.known f hf).1

/-- A delivered frame does not conflict with what `b` stores. -/
theorem Good.consistent {n : Net} {L : Nat} (h : Good n L) {f : NewFrame} (hf : f ∈ n.news) {e : Entry} (he : e ∈ n.b.dcids.inner)
    (hm : e.cid = f.cid ∨ e.seq = f.seq) : e.cid = f.cid ∧ e.seq = f.seq ∧ e.token = some f.token := by
  obtain ⟨x, hx, x1, x2, x3⟩ := h.stored e he
  have := h.frames f hf x hx (by
    rcases hm with hm | hm
    · right; rw [x2, hm]
    · left; rw [x1, hm])
  refine ⟨by rw [← x2, this.2.1], by rw [← x1, this.1], ?_⟩
  rw [← x3 (by rw [← x1, ← this.1]; exact (h.known f hf).1)]
  exact this.2.2

/-- What `b` makes of a delivered frame: the outcome, and that there is room. -/
theorem Good.deliver {n : Net} {L : Nat} (h : Good n L) {f : NewFrame} (hf : f ∈ n.news) :
    (n.b.newDcid f.cid f.seq f.token f.retirePriorTo).1 = .ok () ∨ f.seq < f.retirePriorTo ∨
      n.b.retire.capacity < n.b.retire.inner.length + n.b.dcids.inner.length ∨ n.b.retire.inner.length = n.b.retire.capacity := by
  by_cases hr : f.seq < f.retirePriorTo
  · exact Or.inr (Or.inl hr)
  by_cases hk : Known n.b f.cid f.seq
  · left
    unfold Ids.newDcid
    rw [h.zero]
    simp only [Bool.false_eq_true, if_false]
    split
    · rename_i e hfe
      have h1 := List.mem_of_find?_eq_some hfe
      have h2 := List.find?_some hfe
      simp only [Bool.or_eq_true, beq_iff_eq] at h2
      have := h.consistent hf h1 h2
      rw [if_neg]
      rintro (h3 | h3 | h3)
      · exact h3 this.1
      · exact h3 this.2.1
      · exact h3 this.2.2
    · rename_i hn
      exact absurd hk (known_find.mp hn)
  by_cases hp : f.seq < n.b.peerRetirePriorTo
  · rw [newDcid_below h.zero hk (by omega) hp]
    unfold Ids.markRetire
    rw [if_pos rfl]
    cases hi : n.b.retire.insert f.seq with
    | error x => exact Or.inr (Or.inr (Or.inr (Nat.le_antisymm h.dst.rlen (seqset_insert_error.mp hi).2)))
    | ok s => exact Or.inl rfl
  · by_cases hcap : n.b.retire.inner.length + n.b.dcids.inner.length ≤ n.b.retire.capacity
    · left
      rw [(newDcid_new h.zero hk (by omega) (by omega)).1]
      obtain ⟨⟨p, a1⟩, a2, a3, a4, a5, _, _, _, _, a10⟩ := afterRetire_spec n.b f.seq f.retirePriorTo
      obtain ⟨_, _, _, _, _, a6, _⟩ := afterRetire_frame n.b f.seq f.retirePriorTo
      have hsub : (afterRetire n.b f.seq f.retirePriorTo).1.dcids.inner.Sublist n.b.dcids.inner := by rw [a1]; exact List.filter_sublist
      have hnk : f.seq ∉ keys (afterRetire n.b f.seq f.retirePriorTo).1.dcids.inner := by
        intro hm
        obtain ⟨e, he, hs⟩ := List.mem_map.mp ((hsub.map _).subset hm)
        exact hk ⟨e, he, Or.inr hs⟩
      have hroom : (keys (afterRetire n.b f.seq f.retirePriorTo).1.dcids.inner ++ [f.seq]).length ≤ L := by
        apply window_count (r := if f.retirePriorTo > n.b.peerRetirePriorTo then f.retirePriorTo else n.b.peerRetirePriorTo)
        · exact nodup_snoc ((hsub.map _).nodup h.dst.nodup) hnk
        · intro x hx
          rcases List.mem_append.mp hx with hx | hx
          · obtain ⟨e, he, hs⟩ := List.mem_map.mp hx
            have h1 := (a5 e).mp he
            have h2 := h.room x (List.mem_map.mpr ⟨e, h1.1, hs⟩)
            have h3 := h.dst.above x (List.mem_map.mpr ⟨e, h1.1, hs⟩)
            split
            · have := h1.2 (by omega); omega
            · omega
          · rw [List.mem_singleton] at hx
            have := h.window f hf
            split <;> omega
      rcases insertDcid_cases (afterRetire n.b f.seq f.retirePriorTo).1 ⟨f.cid, f.seq, some f.token, none⟩ (afterRetire n.b f.seq f.retirePriorTo).2 hnk with ⟨hfull, _⟩ | ⟨_, _, he⟩
      · rw [a6, h.dst.cap] at hfull
        simp only [List.length_append, List.length_map, List.length_singleton] at hroom
        omega
      · rw [he, a10 hcap]
    · exact Or.inr (Or.inr (Or.inl (by omega)))

/-- Events at `b` that neither store nor forget connection IDs. -/
theorem Good.quietB {n : Net} {L : Nat} (h : Good n L) {b' : Ids} (h1 : b'.dcids = n.b.dcids)
    (h2 : b'.peerRetirePriorTo = n.b.peerRetirePriorTo) (h3 : b'.zeroLenDcid = n.b.zeroLenDcid) (h4 : DInv b' L)
    (h5 : ∀ x ∈ b'.retire.inner, x < n.b.peerRetirePriorTo) : Good { n with b := b' } L where
  src := h.src
  dst := h4
  zero := by dsimp only; rw [h3]; exact h.zero
  held := by dsimp only; rw [h2]; exact h.held
  window := by dsimp only; rw [h2]; exact h.window
  room := by dsimp only; rw [h1, h2]; exact h.room
  below := by dsimp only; rw [h2]; exact h5
  sent := by dsimp only; rw [h2]; exact h.sent
  known := h.known
  mine := h.mine
  frames := h.frames
  stored := by dsimp only; rw [h1]; exact h.stored
  queue := h.queue
  next := h.next

theorem Good.deliverNew {n : Net} {L : Nat} (h : Good n L) (f : NewFrame) (hf : f ∈ n.news)
    (hok : (n.b.newDcid f.cid f.seq f.token f.retirePriorTo).1 = .ok ()) :
    Good { n with b := (n.b.newDcid f.cid f.seq f.token f.retirePriorTo).2.2 } L := by
  have hd := h.dst.newDcid f.cid f.seq f.token f.retirePriorTo
  by_cases ho : n.b.zeroLenDcid = true ∨ Known n.b f.cid f.seq ∨ f.seq < f.retirePriorTo
  · rw [newDcid_other ho]; exact h
  simp only [not_or, Bool.not_eq_true, Nat.not_lt] at ho
  obtain ⟨h0, hk, hr⟩ := ho
  by_cases hp : f.seq < n.b.peerRetirePriorTo
  · rw [newDcid_below h0 hk hr hp] at hd hok ⊢
    dsimp only at hd hok ⊢
    obtain ⟨r, hr'⟩ := markRetire_frame n.b f.seq true
    apply h.quietB (by rw [hr']) (by rw [hr']) (by rw [hr']) hd
    intro x hx
    unfold Ids.markRetire at hx
    rw [if_pos rfl] at hx
    cases hi : n.b.retire.insert f.seq with
    | error e => rw [hi] at hx; exact h.below x hx
    | ok s =>
      rw [hi] at hx
      dsimp only at hx
      rcases (seqset_insert hi).2.1 x |>.mp hx with hx | hx
      · exact h.below x hx
      · rw [hx]; exact hp
  · have hp' : n.b.peerRetirePriorTo ≤ f.seq := by omega
    obtain ⟨n1, n2⟩ := newDcid_new (tok := f.token) h0 hk hr hp'
    rw [n2] at hd ⊢
    rw [n1] at hok
    obtain ⟨⟨p, a1⟩, a2, a3, a4, a5, a6', a7, _, _, a10⟩ := afterRetire_spec n.b f.seq f.retirePriorTo
    obtain ⟨_, _, _, _, _, a6, a8⟩ := afterRetire_frame n.b f.seq f.retirePriorTo
    have hsub : (afterRetire n.b f.seq f.retirePriorTo).1.dcids.inner.Sublist n.b.dcids.inner := by rw [a1]; exact List.filter_sublist
    have hnk : f.seq ∉ keys (afterRetire n.b f.seq f.retirePriorTo).1.dcids.inner := by
      intro hm
      obtain ⟨e, he, hs⟩ := List.mem_map.mp ((hsub.map _).subset hm)
      exact hk ⟨e, he, Or.inr hs⟩
    have hmono : n.b.peerRetirePriorTo ≤ (afterRetire n.b f.seq f.retirePriorTo).1.peerRetirePriorTo := by
      rw [a2]; split <;> omega
    have hge : f.retirePriorTo ≤ (afterRetire n.b f.seq f.retirePriorTo).1.peerRetirePriorTo := by
      rw [a2]; split <;> omega
    have hle : (afterRetire n.b f.seq f.retirePriorTo).1.peerRetirePriorTo ≤ f.seq := by
      rw [a2]; split <;> omega
    rcases insertDcid_cases (afterRetire n.b f.seq f.retirePriorTo).1 ⟨f.cid, f.seq, some f.token, none⟩ (afterRetire n.b f.seq f.retirePriorTo).2 hnk with ⟨_, he⟩ | ⟨_, he, _⟩
    · rw [he] at hok; cases hok
    · rw [he] at hd ⊢
      refine { src := h.src, dst := hd, zero := by dsimp only; rw [a8]; exact h.zero, held := ?_, window := ?_, room := ?_, below := ?_, sent := ?_, known := h.known, mine := h.mine, frames := h.frames, stored := ?_, queue := h.queue, next := h.next }
      · dsimp only
        intro x hx
        exact h.held x (Nat.le_trans hmono hx)
      · dsimp only
        intro g hg
        rcases h.window g hg with hw | hw
        · left; omega
        · right; exact hw
      · dsimp only
        intro x hx
        rw [keys, List.map_append, List.mem_append] at hx
        rcases hx with hx | hx
        · have := h.room x ((hsub.map _).subset hx); omega
        · simp only [List.map_cons, List.map_nil, List.mem_singleton] at hx
          rcases h.window f hf with hw | hw <;> omega
      · dsimp only
        intro x hx
        rcases a7 x hx with hx | ⟨_, hx, _⟩
        · have := h.below x hx; omega
        · omega
      · dsimp only
        intro x hx
        have := h.sent x hx
        omega
      · dsimp only
        intro e hee
        rcases List.mem_append.mp hee with hee | hee
        · exact h.stored e (hsub.subset hee)
        · rw [List.mem_singleton] at hee
          subst hee
          obtain ⟨x, hx, hxs⟩ := List.mem_map.mp (h.held f.seq hp' (h.known f hf).2.1)
          have := h.frames f hf x hx (Or.inl hxs.symm)
          exact ⟨x, hx, hxs, this.2.1.symm, fun _ => this.2.2⟩

theorem Good.sendRetire {n : Net} {L : Nat} (h : Good n L) (seq : Nat) (u : Option Nat) (m : Nat) (hm : (n.b.sendRetire seq u).1 = some m) :
    Good { n with b := (n.b.sendRetire seq u).2, retires := m :: n.retires } L := by
  unfold Ids.sendRetire at hm ⊢
  split at hm
  · cases hm
  rename_i h1
  split at hm
  · cases hm
  rename_i h2
  rw [if_neg h1, if_neg h2]
  simp only [Option.some.injEq] at hm
  subst hm
  have hmem : seq ∈ n.b.retire.inner := by simpa using h1
  have hb : Good { n with b := (n.b.markRetire seq false).2 } L := by
    apply h.quietB (b' := (n.b.markRetire seq false).2) rfl rfl rfl (h.dst.markRetire seq false)
    intro x hx
    exact h.below x (List.mem_filter.mp hx).1
  refine { src := hb.src, dst := hb.dst, zero := hb.zero, held := hb.held, window := hb.window, room := hb.room, below := hb.below, sent := ?_, known := hb.known, mine := hb.mine, frames := hb.frames, stored := hb.stored, queue := hb.queue, next := hb.next }
  intro x hx
  rcases List.mem_cons.mp hx with hx | hx
  · rw [hx]; exact h.below seq hmem
  · exact h.sent x hx

theorem Good.lostRetire {n : Net} {L : Nat} (h : Good n L) (seq : Nat) (hm : seq ∈ n.retires) :
    Good { n with b := (n.b.markRetire seq true).2 } L := by
  obtain ⟨r, hr⟩ := markRetire_frame n.b seq true
  apply h.quietB (by rw [hr]) (by rw [hr]) (by rw [hr]) (h.dst.markRetire seq true)
  intro x hx
  unfold Ids.markRetire at hx
  rw [if_pos rfl] at hx
  cases hi : n.b.retire.insert seq with
  | error e => rw [hi] at hx; exact h.below x hx
  | ok s =>
    rw [hi] at hx
    dsimp only at hx
    rcases (seqset_insert hi).2.1 x |>.mp hx with hx | hx
    · exact h.below x hx
    · rw [hx]; exact h.sent seq hm

/-- Retiring a number leaves the other entries. -/
theorem retireScid_frame (s : Ids) (hn : (keys s.scids.inner).Nodup) (seq : Nat) (d : Bytes) :
    (∀ e, e ∈ (s.retireScid seq d).2.scids.inner → e ∈ s.scids.inner) ∧
    (∀ e ∈ s.scids.inner, e.seq ≠ seq → e ∈ (s.retireScid seq d).2.scids.inner) ∧
    (s.retireScid seq d).2.nextScidSeq = s.nextScidSeq ∧ (s.retireScid seq d).2.advertise = s.advertise := by
  unfold Ids.retireScid
  split
  · exact ⟨fun e he => he, fun e he _ => he, rfl, rfl⟩
  rcases remove_cases s.scids seq with ⟨_, hr⟩ | ⟨_, _, hr⟩ | ⟨_, e, _, _, hr⟩
  · rw [hr]; exact ⟨fun e he => he, fun e he _ => he, rfl, rfl⟩
  · rw [hr]; exact ⟨fun e he => he, fun e he _ => he, rfl, rfl⟩
  · rw [hr]
    have k1 : ∀ e, e ∈ Deque.del s.scids.inner seq → e ∈ s.scids.inner := fun e he => (del_sublist _ _).subset he
    have k2 : ∀ e ∈ s.scids.inner, e.seq ≠ seq → e ∈ Deque.del s.scids.inner seq := fun e he hs => (mem_del hn).mpr ⟨he, hs⟩
    dsimp only
    split
    · exact ⟨k1, k2, rfl, rfl⟩
    split <;> exact ⟨k1, k2, rfl, rfl⟩

theorem Good.deliverRetire {n : Net} {L : Nat} (h : Good n L) (seq : Nat) (d : Bytes) (hm : seq ∈ n.retires) :
    Good { n with a := (n.a.retireScid seq d).2 } L := by
  obtain ⟨out, hs⟩ := h.src
  obtain ⟨out', hs', _⟩ := hs.retireScid seq d
  obtain ⟨r1, r2, r3, r4⟩ := retireScid_frame n.a hs.nodup seq d
  have hlt := h.sent seq hm
  refine { src := ⟨out', hs'⟩, dst := h.dst, zero := h.zero, held := ?_, window := h.window, room := h.room, below := h.below, sent := h.sent, known := by dsimp only; rw [r3]; exact h.known, mine := fun e he => h.mine e (r1 e he), frames := fun f hf e he => h.frames f hf e (r1 e he), stored := ?_, queue := by dsimp only; rw [r4]; exact h.queue, next := by dsimp only; rw [r3]; exact h.next }
  · dsimp only
    rw [r3]
    intro x hx hxn
    obtain ⟨e, he, hes⟩ := List.mem_map.mp (h.held x hx hxn)
    exact List.mem_map.mpr ⟨e, r2 e he (by omega), hes⟩
  · dsimp only
    intro e he
    obtain ⟨x, hx, hmx⟩ := h.stored e he
    refine ⟨x, r2 x hx ?_, hmx⟩
    have h1 := h.dst.above e.seq (List.mem_map.mpr ⟨e, he, rfl⟩)
    have h2 : x.seq = e.seq := hmx.1
    omega

theorem Good.link {n : Net} {L : Nat} (h : Good n L) (seq p : Nat) : Good { n with b := (n.b.linkDcid seq p).2 } L := by
  have hd := h.dst.linkDcid seq p
  revert hd
  unfold Ids.linkDcid
  split
  · intro _; exact h
  · rename_i e he
    intro hd
    obtain ⟨he1, he2⟩ := find_seq_some he
    have hmem : ∀ x ∈ Deque.put n.b.dcids.inner { e with path := some p }, x ∈ n.b.dcids.inner ∨ x = { e with path := some p } := by
      intro x
      generalize n.b.dcids.inner = l
      induction l with
      | nil => intro hx; cases hx
      | cons y l ih =>
        unfold Deque.put
        split
        · intro hx
          rcases List.mem_cons.mp hx with hx | hx
          · exact Or.inr hx
          · exact Or.inl (List.mem_cons_of_mem _ hx)
        · intro hx
          rcases List.mem_cons.mp hx with hx | hx
          · exact Or.inl (by rw [hx]; exact List.mem_cons_self)
          · rcases ih hx with h | h
            · exact Or.inl (List.mem_cons_of_mem _ h)
            · exact Or.inr h
    refine { src := h.src, dst := hd, zero := h.zero, held := h.held, window := h.window, room := by dsimp only; rw [keys_put]; exact h.room, below := h.below, sent := h.sent, known := h.known, mine := h.mine, frames := h.frames, stored := ?_, queue := h.queue, next := h.next }
    intro x hx
    rcases hmem x hx with hx | hx
    · exact h.stored x hx
    · rw [hx]
      exact h.stored e he1

theorem Good.reach {limit : Nat} {scid other : Bytes} {atok btok : Option Nat} (hne : scid ≠ []) {n : Net}
    (hr : Reach limit scid other atok btok n) : Good n (atLeastTwo limit) := by
  induction hr with
  | init => exact Good.init limit scid other atok btok hne
  | @setLimit n _ ih =>
    obtain ⟨out, hs⟩ := ih.src
    have := hs.setSourceLimit (atLeastTwo limit)
    rw [if_neg (Nat.lt_irrefl _)] at this
    apply ih.quietA _ _ ⟨out, this⟩
    · unfold Ids.setSourceLimit; dsimp only; split
      · exact ih.queue
      · exact ih.queue
    · unfold Ids.setSourceLimit Deque.resize; dsimp only
      split
      · split <;> rfl
      · rfl
    · unfold Ids.setSourceLimit; dsimp only; split <;> rfl
  | issue cid tok r _ hf ih => exact ih.issue cid tok r hf
  | sendNew f _ hf ih => exact ih.sendNew f hf
  | lostNew f _ hf ih => exact ih.lostNew f hf
  | deliverNew f _ hf hok ih => exact ih.deliverNew f hf hok
  | sendRetire seq u m _ hm ih => exact ih.sendRetire seq u m hm
  | lostRetire seq _ hm ih => exact ih.lostRetire seq hm
  | deliverRetire seq d _ hm ih => exact ih.deliverRetire seq d hm
  | link seq p _ ih => exact ih.link seq p

/-- Partial: as long as the receiver's application retires nothing itself, every
NEW_CONNECTION_ID frame is accepted whenever it arrives, however late and however often,
unless it is malformed (C39) or the queue of retirements is about to be full. In
particular there is always room for the connection ID. Missing: applications calling
`retire_dcid`, for which it is false, and RETIRE_CONNECTION_ID frames. -/
theorem accepted_partial {limit : Nat} {scid other : Bytes} {atok btok : Option Nat} (hne : scid ≠ []) {n : Net}
    (hr : Reach limit scid other atok btok n) (f : NewFrame) (hf : f ∈ n.news) :
    (n.b.newDcid f.cid f.seq f.token f.retirePriorTo).1 = .ok () ∨ f.seq < f.retirePriorTo ∨
      n.b.retire.capacity < n.b.retire.inner.length + n.b.dcids.inner.length ∨ n.b.retire.inner.length = n.b.retire.capacity :=
  (Good.reach hne hr).deliver hf

/-- And what the receiver may use, the issuer still answers to. -/
theorem usable_partial {limit : Nat} {scid other : Bytes} {atok btok : Option Nat} (hne : scid ≠ []) {n : Net}
    (hr : Reach limit scid other atok btok n) (e : Entry) (he : e ∈ n.b.dcids.inner) :
    ∃ x ∈ n.a.scids.inner, x.seq = e.seq ∧ x.cid = e.cid := by
  obtain ⟨x, hx, h1, h2, _⟩ := (Good.reach hne hr).stored e he
  exact ⟨x, hx, h1, h2⟩

/-- The application of `b` retires 1; a repeat of the frame, delayed in the network,
brings it back, and the next connection ID, which `a` may well issue, is one too many. -/
theorem delayed_repeat_closes :
    let a1 := (run (start 2 [1] [2] none none) [.issue [3] 7 false, .sendNew, .lostNew 1, .sendNew, .recvRetire 1 [1], .issue [4] 8 false])
    let b1 := (run (start 2 [2] [1] none none) [.recvNew [3] 1 7 0, .retireDcid 1, .sendRetire 1 none, .recvNew [3] 1 7 0])
    a1.sent = [⟨1, 0, [3], 7⟩, ⟨1, 0, [3], 7⟩] ∧ b1.retires = [1] ∧ a1.closed = false ∧ b1.closed = false ∧
    a1.ids.sendNew.1 = .ok (some ⟨2, 0, [4], 8⟩) ∧ (b1.ids.newDcid [4] 2 8 0).1 = .error .idLimit := by decide +kernel

/-- A RETIRE_CONNECTION_ID frame repeated after an unnecessary retransmission is an error
when only one connection ID is left. -/
theorem repeated_retire_closes :
    let a1 := run (start 2 [1] [2] none none) [.issue [3] 7 false, .sendNew, .recvRetire 0 [3]]
    let b1 := run (start 2 [2] [1] none none) [.recvNew [3] 1 7 0, .retireDcid 0, .sendRetire 0 none, .lostRetire 0, .sendRetire 0 none]
    a1.closed = false ∧ b1.retires = [0, 0] ∧ (a1.ids.retireScid 0 [3]).1 = .error .outOfIdentifiers := by decide +kernel

/-- Refused calls of `new_scid` make the next RETIRE_CONNECTION_ID an error. -/
theorem refused_calls_close :
    let a1 := run (start 2 [1] [2] none none) [.issue [3] 7 true, .sendNew, .issue [4] 8 true, .sendNew, .issue [5] 9 true, .issue [5] 9 true]
    a1.out = [0, 1, 2] ∧ (a1.ids.retireScid 0 [3]).1 = .error .invalidState := by decide +kernel

/-- The malformed frame of C39 reaches `b`. -/
theorem malformed_closes :
    let a1 := run (start 2 [1] [2] none none) [.setLimit 3, .issue [3] 7 true, .issue [4] 8 true, .issue [5] 9 true, .issue [6] 10 true, .sendNew]
    let b1 := start 3 [2] [1] none none
    a1.sent = [⟨1, 2, [3], 7⟩] ∧ (b1.ids.newDcid [3] 1 7 2).1 = .error .invalidFrame := by decide +kernel

/-- A connection ID issued, delivered twice, retired and replaced. -/
example : ∃ n, Reach 2 [1] [2] none none n ∧ n.b.dcids.inner.map (·.seq) = [1, 2] ∧ n.b.retire.inner = [0] := by
  refine ⟨_, .deliverNew ⟨2, 1, [4], 8⟩ (.deliverNew ⟨1, 0, [3], 7⟩ (.deliverNew ⟨1, 0, [3], 7⟩
    (.sendNew ⟨2, 1, [4], 8⟩ (.issue [4] 8 true (.sendNew ⟨1, 0, [3], 7⟩ (.issue [3] 7 false (.init) ?_) ?_) ?_) ?_) ?_ ?_) ?_ ?_) ?_ ?_, ?_, ?_⟩
  all_goals decide +kernel

end Verif.Props.C78
