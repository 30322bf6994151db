import Verif.Cid.Inv

/-!
C77: an endpoint can always build the NEW_CONNECTION_ID frame it wants to send next. False:
a number retired by the peer stays in the queue of numbers to advertise, or enters it
again when the packet is declared lost, and from then on every attempt to build a packet
fails.
-/

namespace Verif.Props.C77
open Verif Verif.Cid

/-- The number to be sent next is gone. -/
structure Stuck (st : St) (n : Nat) : Prop where
  head : st.ids.advertise.head? = some n
  gone : n ∉ keys st.ids.scids.inner
  old : n < st.ids.nextScidSeq

theorem Stuck.error {st : St} {n : Nat} (h : Stuck st n) : st.ids.sendNew = (.error .invalidState, st.ids) := by
  unfold Ids.sendNew
  rw [h.head]
  have : st.ids.frameFor n = .error .invalidState := by
    unfold Ids.frameFor Deque.get
    rw [find_seq_none.mpr h.gone]
  dsimp only
  rw [this]

theorem head_snoc {l : List Nat} {n m : Nat} (h : l.head? = some n) : (l ++ [m]).head? = some n := by
  cases l with
  | nil => cases h
  | cons x l => exact h

theorem Stuck.newScidCont {st : St} {n : Nat} (h : Stuck st n) (cid : Bytes) (t : Option Nat) (p : Option Nat) (r : Nat) :
    Stuck { st with ids := ({ st.ids with retirePriorTo := r }.newScidCont cid t true p).2 } n := by
  rcases newScidCont_cases { st.ids with retirePriorTo := r } cid t true p with ⟨x, hx, _⟩ | ⟨d, hx, hd, _⟩
  · rw [hx]; exact ⟨h.head, h.gone, h.old⟩
  · rw [hx]
    dsimp only at hd ⊢
    unfold Ids.markAdvertise
    rw [if_pos rfl]
    refine ⟨head_snoc h.head, ?_, by dsimp only; have := h.old; omega⟩
    dsimp only
    unfold Deque.insert Deque.get at hd
    dsimp only at hd
    split at hd
    · cases hd; dsimp only; rw [keys_put]; exact h.gone
    · split at hd
      · cases hd
      · cases hd
        dsimp only
        rw [keys, List.map_append, List.mem_append]
        rintro (hm | hm)
        · exact h.gone hm
        · simp only [List.map_cons, List.map_nil, List.mem_singleton] at hm
          have := h.old
          omega

theorem Stuck.same {st st' : St} {n : Nat} (h : Stuck st n) (h1 : st'.ids.advertise = st.ids.advertise)
    (h2 : st'.ids.scids = st.ids.scids) (h3 : st'.ids.nextScidSeq = st.ids.nextScidSeq) : Stuck st' n :=
  ⟨by rw [h1]; exact h.head, by rw [h2]; exact h.gone, by rw [h3]; exact h.old⟩

theorem Stuck.ids {st st' : St} {n : Nat} (h : Stuck st n) (he : st'.ids = st.ids) : Stuck st' n :=
  ⟨by rw [he]; exact h.head, by rw [he]; exact h.gone, by rw [he]; exact h.old⟩

theorem Stuck.step {st : St} {n : Nat} (h : Stuck st n) (op : Op) : Stuck (step st op) n := by
  cases op with
  | setLimit v =>
    simp only [Cid.step, Ids.setSourceLimit, Deque.resize]
    split
    · split <;> exact ⟨h.head, h.gone, h.old⟩
    · exact ⟨h.head, h.gone, h.old⟩
  | issue cid token r =>
    simp only [Cid.step]
    have key : Stuck { st with ids := (st.ids.newScid cid (some token) true none r).2 } n := by
      unfold Ids.newScid
      split
      · exact h
      split
      · split
        · exact h
        split
        · exact h
        · exact h.newScidCont cid (some token) none _
      · exact h.newScidCont cid (some token) none st.ids.retirePriorTo
    generalize st.ids.newScid cid (some token) true none r = x at key
    obtain ⟨x1, x2⟩ := x
    cases x1 <;> exact key.ids rfl
  | sendNew =>
    simp only [Cid.step]
    rw [h.error]
    exact h
  | lostNew seq =>
    simp only [Cid.step]
    split
    · unfold Ids.markAdvertise
      rw [if_pos rfl]
      exact ⟨head_snoc h.head, h.gone, h.old⟩
    · exact h
  | recvNew cid seq token rpt =>
    obtain ⟨f1, f2, f3, f4, f5⟩ := newDcid_sframe st.ids cid seq token rpt
    simp only [Cid.step]
    generalize st.ids.newDcid cid seq token rpt = x at f1 f2 f5
    obtain ⟨x1, x2, x3⟩ := x
    cases x1 <;> exact h.same f5 f1 f2
  | recvRetire seq d =>
    have key : Stuck { st with ids := (st.ids.retireScid seq d).2 } n := by
      unfold Ids.retireScid
      split
      · exact h
      rcases remove_cases st.ids.scids seq with ⟨_, hr⟩ | ⟨_, _, hr⟩ | ⟨_, e, _, _, hr⟩
      · rw [hr]; exact h
      · rw [hr]; exact ⟨h.head, h.gone, h.old⟩
      · rw [hr]
        have hg : n ∉ keys (Deque.del st.ids.scids.inner seq) := fun hm => h.gone (((del_sublist _ _).map _).subset hm)
        dsimp only
        split
        · exact ⟨h.head, hg, h.old⟩
        split
        · exact ⟨h.head, hg, h.old⟩
        · exact ⟨h.head, hg, h.old⟩
    simp only [Cid.step]
    generalize st.ids.retireScid seq d = x at key
    obtain ⟨x1, x2⟩ := x
    cases x1 <;> exact key.ids rfl
  | retireDcid seq =>
    obtain ⟨f1, f2, f3, f4, f5⟩ := retireDcid_sframe st.ids seq
    exact h.same f5 f1 f2
  | sendRetire seq u =>
    simp only [Cid.step]
    unfold Ids.sendRetire
    split
    · exact h.ids rfl
    · split
      · exact h.ids rfl
      · obtain ⟨r, hr⟩ := markRetire_frame st.ids seq false
        apply h.same <;> simp only [stepSendRetire] <;> rw [hr]
  | lostRetire seq =>
    simp only [Cid.step]
    split
    · obtain ⟨r, hr⟩ := markRetire_frame st.ids seq true
      apply h.same <;> dsimp only <;> rw [hr]
    · exact h
  | linkDcid seq p =>
    apply h.same <;> (simp only [Cid.step, Ids.linkDcid] <;> split <;> rfl)
  | linkScid seq p =>
    refine ⟨?_, ?_, ?_⟩ <;> simp only [Cid.step, Ids.linkScid] <;> split
    · exact h.head
    · exact h.head
    · exact h.gone
    · dsimp only; rw [keys_put]; exact h.gone
    · exact h.old
    · exact h.old

/-- Once the next number is gone, no later event helps: building a packet fails for ever. -/
theorem stuck_for_ever {st : St} {n : Nat} (h : Stuck st n) (ops : List Op) :
    (run st ops).ids.sendNew.1 = .error .invalidState := by
  suffices hs : Stuck (run st ops) n by rw [hs.error]
  induction ops generalizing st with
  | nil => exact h
  | cons op ops ih =>
    apply ih
    unfold stepOpen
    split
    · exact h
    · exact h.step op

/-- The ordinary way there: the frame with number 1 leaves, its packet is declared lost
although it arrived, and the peer retires number 1. -/
theorem spurious_loss_blocks (ops : List Op) :
    let st := run (start 2 [1] [2] none none) [.issue [3] 7 false, .sendNew, .lostNew 1, .recvRetire 1 [1]]
    st.closed = false ∧ (run st ops).ids.sendNew.1 = .error .invalidState := by
  refine ⟨by decide +kernel, stuck_for_ever (n := 1) ⟨by decide +kernel, by decide +kernel, by decide +kernel⟩ ops⟩

/-- In the other order as well. -/
theorem late_loss_blocks (ops : List Op) :
    let st := run (start 2 [1] [2] none none) [.issue [3] 7 false, .sendNew, .recvRetire 1 [1], .lostNew 1]
    st.closed = false ∧ (run st ops).ids.sendNew.1 = .error .invalidState := by
  refine ⟨by decide +kernel, stuck_for_ever (n := 1) ⟨by decide +kernel, by decide +kernel, by decide +kernel⟩ ops⟩

/-- A peer does it at will, retiring a number before it is advertised. -/
theorem guess_blocks (ops : List Op) :
    let st := run (start 2 [1] [2] none none) [.issue [3] 7 false, .recvRetire 1 [1]]
    st.closed = false ∧ (run st ops).ids.sendNew.1 = .error .invalidState := by
  refine ⟨by decide +kernel, stuck_for_ever (n := 1) ⟨by decide +kernel, by decide +kernel, by decide +kernel⟩ ops⟩

/-- The peer retires only numbers not waiting to be advertised, and losses concern only
numbers not retired. -/
def Calm (st : St) : Op → Prop
  | .recvRetire n _ => n ∉ st.ids.advertise
  | .lostNew n => n ∈ st.out
  | _ => True

/-- Every step of a history is calm. -/
def CalmRun : St → List Op → Prop
  | _, [] => True
  | st, op :: ops => (st.closed = false → Calm st op) ∧ CalmRun (stepOpen st op) ops

structure Ready (st : St) : Prop where
  queue : ∀ n ∈ st.ids.advertise, n ∈ keys st.ids.scids.inner ∧ n ≠ 0
  token : ∀ e ∈ st.ids.scids.inner, e.seq ≠ 0 → e.token.isSome
  sent : ∀ f ∈ st.sent, f.seq ≠ 0
  next : st.ids.nextScidSeq ≠ 0

theorem Ready.ok {st : St} {c : Nat} (h : Ready st) (hi : Inv st c) : ∃ f, st.ids.sendNew.1 = .ok f := by
  obtain ⟨out, hs, _⟩ := hi.src
  unfold Ids.sendNew
  cases hh : st.ids.advertise.head? with
  | none => exact ⟨_, rfl⟩
  | some n =>
    obtain ⟨h1, h2⟩ := h.queue n (List.mem_of_mem_head? hh)
    obtain ⟨e, he, hes⟩ := List.mem_map.mp h1
    have h3 : st.ids.scids.get n = some e := by
      unfold Deque.get; rw [← hes]; exact find_seq_of_mem hs.nodup he
    have h4 := h.token e he (by rw [hes]; exact h2)
    dsimp only
    unfold Ids.frameFor
    rw [h3]
    dsimp only
    cases ht : e.token with
    | none => rw [ht] at h4; cases h4
    | some t => exact ⟨_, rfl⟩

theorem Ready.same {st st' : St} (h : Ready st) (h1 : st'.ids.advertise = st.ids.advertise)
    (h2 : st'.ids.scids = st.ids.scids) (h3 : st'.ids.nextScidSeq = st.ids.nextScidSeq) (h4 : st'.sent = st.sent) : Ready st' :=
  ⟨by rw [h1, h2]; exact h.queue, by rw [h2]; exact h.token, by rw [h4]; exact h.sent, by rw [h3]; exact h.next⟩

theorem Ready.newScidCont {st : St} {c : Nat} (h : Ready st) (hi : Inv st c) (cid : Bytes) (t : Nat) (p : Option Nat) (r : Nat) :
    Ready { st with ids := ({ st.ids with retirePriorTo := r }.newScidCont cid (some t) true p).2 } := by
  obtain ⟨out, hs, _⟩ := hi.src
  rcases newScidCont_cases { st.ids with retirePriorTo := r } cid (some t) true p with ⟨x, hx, _⟩ | ⟨d, hx, hd, _⟩
  · rw [hx]; exact ⟨h.queue, h.token, h.sent, h.next⟩
  · rw [hx]
    dsimp only at hd ⊢
    have hn : st.ids.nextScidSeq ∉ keys st.ids.scids.inner := fun hm => Nat.lt_irrefl _ (hs.lt _ hm)
    obtain ⟨hd, _⟩ := insert_new hn hd
    subst hd
    unfold Ids.markAdvertise
    rw [if_pos rfl]
    refine ⟨?_, ?_, h.sent, by dsimp only; omega⟩
    · dsimp only
      intro n hn
      rw [keys, List.map_append, List.mem_append]
      rcases List.mem_append.mp hn with hn | hn
      · exact ⟨Or.inl (h.queue n hn).1, (h.queue n hn).2⟩
      · rw [List.mem_singleton] at hn
        exact ⟨Or.inr (by simp [hn]), by rw [hn]; exact h.next⟩
    · dsimp only
      intro e he hne
      rcases List.mem_append.mp he with he | he
      · exact h.token e he hne
      · rw [List.mem_singleton] at he
        rw [he]; rfl

theorem Ready.step {st : St} {c : Nat} (h : Ready st) (hi : Inv st c) (ho : st.closed = false) (op : Op) (hc : Calm st op) :
    Ready (step st op) := by
  obtain ⟨out, hs, heq⟩ := hi.src
  have heq := heq ho
  subst heq
  cases op with
  | setLimit v =>
    simp only [Cid.step, Ids.setSourceLimit, Deque.resize]
    split
    · split <;> exact ⟨h.queue, h.token, h.sent, h.next⟩
    · exact ⟨h.queue, h.token, h.sent, h.next⟩
  | issue cid token r =>
    simp only [Cid.step]
    have key : Ready { st with ids := (st.ids.newScid cid (some token) true none r).2 } := by
      unfold Ids.newScid
      split
      · exact h
      split
      · split
        · exact h
        split
        · exact h
        · exact h.newScidCont hi cid token none _
      · exact h.newScidCont hi cid token none st.ids.retirePriorTo
    generalize st.ids.newScid cid (some token) true none r = x at key
    obtain ⟨x1, x2⟩ := x
    cases x1 <;> exact ⟨key.queue, key.token, key.sent, key.next⟩
  | sendNew =>
    simp only [Cid.step]
    unfold Ids.sendNew
    split
    · exact h.same rfl rfl rfl rfl
    · rename_i n hh
      split
      · exact h.same rfl rfl rfl rfl
      · rename_i f hf
        simp only [stepSendNew]
        unfold Ids.markAdvertise
        simp only [Bool.false_eq_true, if_false]
        have hq := h.queue n (List.mem_of_mem_head? hh)
        refine ⟨fun m hm => h.queue m (List.mem_of_mem_erase hm), h.token, ?_, h.next⟩
        intro g hg
        rcases List.mem_cons.mp hg with hg | hg
        · subst hg
          unfold Ids.frameFor at hf
          split at hf
          · cases hf
          · split at hf
            · cases hf
            · cases hf; exact hq.2
        · exact h.sent g hg
  | lostNew seq =>
    simp only [Cid.step]
    split
    · rename_i hany
      unfold Ids.markAdvertise
      rw [if_pos rfl]
      refine ⟨?_, h.token, h.sent, h.next⟩
      intro n hn
      rcases List.mem_append.mp hn with hn | hn
      · exact h.queue n hn
      · rw [List.mem_singleton] at hn
        subst hn
        refine ⟨by have : n ∈ st.out := hc; rw [hs.out] at this; exact this, ?_⟩
        rw [List.any_eq_true] at hany
        obtain ⟨f, hf, hfs⟩ := hany
        simp only [beq_iff_eq] at hfs
        rw [← hfs]; exact h.sent f hf
    · exact h
  | recvNew cid seq token rpt =>
    obtain ⟨f1, f2, f3, f4, f5⟩ := newDcid_sframe st.ids cid seq token rpt
    simp only [Cid.step]
    generalize st.ids.newDcid cid seq token rpt = x at f1 f2 f5
    obtain ⟨x1, x2, x3⟩ := x
    cases x1 <;> exact h.same f5 f1 f2 rfl
  | recvRetire seq d =>
    have hc : seq ∉ st.ids.advertise := hc
    have key : Ready { st with ids := (st.ids.retireScid seq d).2 } := by
      unfold Ids.retireScid
      split
      · exact h
      rcases remove_cases st.ids.scids seq with ⟨_, hr⟩ | ⟨_, _, hr⟩ | ⟨_, e, _, _, hr⟩
      · rw [hr]; exact h
      · rw [hr]; exact ⟨h.queue, h.token, h.sent, h.next⟩
      · rw [hr]
        have hq : ∀ n ∈ st.ids.advertise, n ∈ keys (Deque.del st.ids.scids.inner seq) ∧ n ≠ 0 := by
          intro n hn
          obtain ⟨h1, h2⟩ := h.queue n hn
          refine ⟨?_, h2⟩
          obtain ⟨x, hx, hxs⟩ := List.mem_map.mp h1
          exact List.mem_map.mpr ⟨x, (mem_del hs.nodup).mpr ⟨hx, by rw [hxs]; intro hh; exact hc (hh ▸ hn)⟩, hxs⟩
        have ht : ∀ e ∈ Deque.del st.ids.scids.inner seq, e.seq ≠ 0 → e.token.isSome :=
          fun e he => h.token e ((del_sublist _ _).subset he)
        dsimp only
        split
        · exact ⟨hq, ht, h.sent, h.next⟩
        split
        · exact ⟨hq, ht, h.sent, h.next⟩
        · exact ⟨hq, ht, h.sent, h.next⟩
    simp only [Cid.step]
    generalize st.ids.retireScid seq d = x at key
    obtain ⟨x1, x2⟩ := x
    cases x1 <;> exact ⟨key.queue, key.token, key.sent, key.next⟩
  | retireDcid seq =>
    obtain ⟨f1, f2, f3, f4, f5⟩ := retireDcid_sframe st.ids seq
    exact h.same f5 f1 f2 rfl
  | sendRetire seq u =>
    simp only [Cid.step]
    unfold Ids.sendRetire
    split
    · exact h.same rfl rfl rfl rfl
    · split
      · exact h.same rfl rfl rfl rfl
      · obtain ⟨r, hr⟩ := markRetire_frame st.ids seq false
        apply h.same <;> simp only [stepSendRetire] <;> rw [hr]
  | lostRetire seq =>
    simp only [Cid.step]
    split
    · obtain ⟨r, hr⟩ := markRetire_frame st.ids seq true
      apply h.same <;> dsimp only <;> rw [hr]
    · exact h
  | linkDcid seq p =>
    apply h.same <;> (simp only [Cid.step, Ids.linkDcid] <;> split <;> rfl)
  | linkScid seq p =>
    simp only [Cid.step, Ids.linkScid]
    split
    · exact h
    · rename_i e he
      have hmem : ∀ x ∈ Deque.put st.ids.scids.inner { e with path := some p }, x ∈ st.ids.scids.inner ∨ x = { e with path := some p } := by
        intro x
        generalize st.ids.scids.inner = l
        induction l with
        | nil => intro hx; cases hx
        | cons y l ih =>
          unfold Deque.put
          split
          · intro hx
            rcases List.mem_cons.mp hx with hx | hx
            · exact Or.inr hx
            · exact Or.inl (List.mem_cons_of_mem _ hx)
          · intro hx
            rcases List.mem_cons.mp hx with hx | hx
            · exact Or.inl (by rw [hx]; exact List.mem_cons_self)
            · rcases ih hx with h | h
              · exact Or.inl (List.mem_cons_of_mem _ h)
              · exact Or.inr h
      refine ⟨by dsimp only; rw [keys_put]; exact h.queue, ?_, h.sent, h.next⟩
      intro x hx hne
      rcases hmem x hx with hx | hx
      · exact h.token x hx hne
      · rw [hx] at hne ⊢
        exact h.token e (find_seq_some he).1 hne

/-- Partial: in calm histories there is always a frame or nothing to send. Missing: the
histories above, for which it is false. -/
theorem never_fails_partial {limit : Nat} {scid dcid : Bytes} {stok dtok : Option Nat} (ops : List Op)
    (hc : CalmRun (start limit scid dcid stok dtok) ops) :
    ∃ f, (run (start limit scid dcid stok dtok) ops).ids.sendNew.1 = .ok f := by
  suffices h : ∀ st, Inv st (atLeastTwo limit) → Ready st → CalmRun st ops → Ready (run st ops) ∧ Inv (run st ops) (atLeastTwo limit) by
    obtain ⟨h1, h2⟩ := h _ (Inv.start limit scid dcid stok dtok) ⟨by simp [start, new, Ids.setInitialDcid],
      by simp [start, new, Ids.setInitialDcid], by simp [start], by simp [start, new, Ids.setInitialDcid]⟩ hc
    exact h1.ok h2
  clear hc
  intro st
  induction ops generalizing st with
  | nil => intro hi hr _; exact ⟨hr, hi⟩
  | cons op ops ih =>
    intro hi hr hc
    apply ih _ _ _ hc.2
    · unfold stepOpen
      split
      · exact hi
      · rename_i ho; exact hi.step (by simpa using ho) op
    · unfold stepOpen
      split
      · exact hr
      · rename_i ho
        have ho : st.closed = false := by simpa using ho
        exact hr.step hi ho op (hc.1 ho)

example : CalmRun (start 2 [1] [2] none none) [.issue [3] 7 false, .sendNew, .lostNew 1, .sendNew, .recvRetire 1 [1], .issue [4] 8 false] ∧
    (run (start 2 [1] [2] none none) [.issue [3] 7 false, .sendNew, .lostNew 1, .sendNew, .recvRetire 1 [1], .issue [4] 8 false]).ids.sendNew.1
      = .ok (some ⟨2, 0, [4], 8⟩) := by
  refine ⟨?_, by decide +kernel⟩
  simp only [CalmRun, Calm]
  decide +kernel

end Verif.Props.C77
