import Verif.Cid.Inv

/-!
C39: the `retire_prior_to` of every NEW_CONNECTION_ID frame is at most its sequence
number. False: the frame takes the threshold of the moment it is put in a packet, which
may have passed its own number.
-/

namespace Verif.Props.C39
open Verif Verif.Cid

/-- The peer allows three. Four connection IDs are issued, each call succeeding; the first
frame leaving asks for the retirement of everything below 2 and has number 1. A quiche
peer answers with an error and closes the connection. -/
theorem malformed_frame :
    let st := run (start 2 [1] [2] none none)
      [.setLimit 3, .issue [3] 7 true, .issue [4] 8 true, .issue [5] 9 true, .issue [6] 10 true]
    st.out = [0, 1, 2, 3, 4] ∧ st.closed = false ∧ st.ids.sendNew.1 = .ok (some ⟨1, 2, [3], 7⟩) ∧
      ((start 3 [2] [1] none none).ids.newDcid [3] 1 7 2).1 = .error .invalidFrame := by decide +kernel

/-- The same for a retransmission: the frame left in order with threshold 0, was lost, and
meanwhile two more were issued. -/
theorem malformed_retransmission :
    let st := run (start 2 [1] [2] none none)
      [.setLimit 3, .issue [3] 7 true, .sendNew, .issue [4] 8 true, .issue [5] 9 true, .issue [6] 10 true, .sendNew, .sendNew, .sendNew, .lostNew 1]
    st.sent.map (fun f => (f.seq, f.retirePriorTo)) = [(4, 2), (3, 2), (2, 2), (1, 0)] ∧ st.ids.sendNew.1 = .ok (some ⟨1, 2, [3], 7⟩) := by
  decide +kernel

/-- And calls that fail move the threshold as well: with a limit of two the third call is
refused, but the frame of the first is spoilt. -/
theorem malformed_after_failure :
    let st := run (start 2 [1] [2] none none) [.issue [3] 7 true, .issue [4] 8 true]
    (st.ids.newScid [5] (some 9) true none true).1 = .error .idLimit ∧ st.ids.sendNew.1 = .ok (some ⟨1, 1, [3], 7⟩) ∧
      (step st (.issue [5] 9 true)).ids.sendNew.1 = .ok (some ⟨1, 2, [3], 7⟩) := by decide +kernel

/-- Does the application never agree to have old ones retired? -/
def Keeps : Op → Prop
  | .issue _ _ r => r = false
  | _ => True

/-- Nothing issued is below the threshold, and frames sent were fine. -/
structure Good (st : St) : Prop where
  low : ∀ x ∈ keys st.ids.scids.inner, st.ids.retirePriorTo ≤ x
  sent : ∀ f ∈ st.sent, f.retirePriorTo ≤ f.seq

theorem Good.same {st st' : St} (h : Good st) (h1 : st'.ids.scids = st.ids.scids) (h2 : st'.ids.retirePriorTo = st.ids.retirePriorTo)
    (h3 : st'.sent = st.sent) : Good st' := ⟨by rw [h1, h2]; exact h.low, by rw [h3]; exact h.sent⟩

theorem Good.step {st : St} {c : Nat} (hi : Inv st c) (h : Good st) (op : Op) (hk : Keeps op) : Good (step st op) := by
  obtain ⟨out, hs, _⟩ := hi.src
  cases op with
  | setLimit v =>
    refine ⟨?_, h.sent⟩
    simp only [Cid.step, Ids.setSourceLimit, Deque.resize]
    split
    · split <;> exact h.low
    · exact h.low
  | issue cid token r =>
    have hr : r = false := hk
    subst hr
    simp only [Cid.step]
    unfold Ids.newScid
    split
    · exact h
    split
    · exact h
    rcases newScidCont_cases st.ids cid (some token) true none with ⟨x, hx, _⟩ | ⟨d, hx, hd, _⟩
    · rw [hx]
      cases x <;> exact h.same rfl rfl rfl
    · rw [hx]
      have hn : st.ids.nextScidSeq ∉ keys st.ids.scids.inner := fun hm => Nat.lt_irrefl _ (hs.lt _ hm)
      obtain ⟨hd, _⟩ := insert_new hn hd
      obtain ⟨m1, m2, m3, _⟩ := markAdvertise_scids { st.ids with scids := d, nextScidSeq := st.ids.nextScidSeq + 1 } st.ids.nextScidSeq true
      refine ⟨?_, h.sent⟩
      simp only [stepIssue]
      rw [m1, m3, hd]
      dsimp only
      intro x hx
      rw [keys, List.map_append] at hx
      rcases List.mem_append.mp hx with hx | hx
      · exact h.low x hx
      · simp only [List.map_cons, List.map_nil, List.mem_singleton] at hx
        rw [hx]; exact hs.rpt
  | sendNew =>
    simp only [Cid.step]
    unfold Ids.sendNew
    split
    · exact h.same rfl rfl rfl
    · rename_i n _
      split
      · exact h.same rfl rfl rfl
      · rename_i f hf
        obtain ⟨m1, m2, m3, _⟩ := markAdvertise_scids st.ids n false
        simp only [stepSendNew]
        refine ⟨by dsimp only; rw [m1, m3]; exact h.low, ?_⟩
        intro g hg
        rcases List.mem_cons.mp hg with hg | hg
        · subst hg
          unfold Ids.frameFor at hf
          split at hf
          · cases hf
          · rename_i e he
            split at hf
            · cases hf
            · cases hf
              have := find_seq_some he
              exact h.low n (List.mem_map.mpr ⟨e, this.1, this.2⟩)
        · exact h.sent g hg
  | lostNew seq =>
    simp only [Cid.step]
    split
    · obtain ⟨m1, m2, m3, _⟩ := markAdvertise_scids st.ids seq true
      exact h.same m1 m3 rfl
    · exact h
  | recvNew cid seq token rpt =>
    obtain ⟨f1, f2, f3, f4, _⟩ := newDcid_sframe st.ids cid seq token rpt
    simp only [Cid.step]
    generalize st.ids.newDcid cid seq token rpt = x at f1 f3
    obtain ⟨x1, x2, x3⟩ := x
    cases x1 <;> exact h.same f1 f3 rfl
  | recvRetire seq d =>
    have key : ∀ x ∈ keys (st.ids.retireScid seq d).2.scids.inner, (st.ids.retireScid seq d).2.retirePriorTo ≤ x := by
      unfold Ids.retireScid
      split
      · exact h.low
      rcases remove_cases st.ids.scids seq with ⟨_, hr⟩ | ⟨_, _, hr⟩ | ⟨_, e, _, _, hr⟩
      · rw [hr]; exact h.low
      · rw [hr]; exact h.low
      · rw [hr]
        have hsub := (del_sublist st.ids.scids.inner seq).map Entry.seq
        dsimp only
        split
        · intro x hx; exact h.low x (hsub.subset hx)
        split
        · intro x hx; exact h.low x (hsub.subset hx)
        · rename_i n hn
          obtain ⟨h1, h2, h3⟩ := lowestUsable_ok hn
          intro x hx
          exact h3 x hx (h.low x (hsub.subset hx))
    simp only [Cid.step]
    generalize st.ids.retireScid seq d = x at key
    obtain ⟨x1, x2⟩ := x
    cases x1 <;> exact ⟨key, h.sent⟩
  | retireDcid seq =>
    obtain ⟨f1, f2, f3, f4, _⟩ := retireDcid_sframe st.ids seq
    exact h.same f1 f3 rfl
  | sendRetire seq u =>
    simp only [Cid.step]
    unfold Ids.sendRetire
    split
    · exact h.same rfl rfl rfl
    · split
      · exact h.same rfl rfl rfl
      · obtain ⟨r, hr⟩ := markRetire_frame st.ids seq false
        apply h.same <;> simp only [stepSendRetire] <;> rw [hr]
  | lostRetire seq =>
    simp only [Cid.step]
    split
    · obtain ⟨r, hr⟩ := markRetire_frame st.ids seq true
      apply h.same <;> dsimp only <;> rw [hr]
    · exact h
  | linkDcid seq p =>
    apply h.same <;> (simp only [Cid.step, Ids.linkDcid] <;> split <;> rfl)
  | linkScid seq p =>
    refine ⟨?_, h.sent⟩
    simp only [Cid.step, Ids.linkScid]
    split
    · exact h.low
    · dsimp only
      rw [keys_put]; exact h.low

/-- Partial: as long as the application never lets `new_scid` retire old ones, every frame
is well-formed. Missing: the property without this condition, which is false. -/
theorem wellformed_partial {limit : Nat} {scid dcid : Bytes} {stok dtok : Option Nat} (ops : List Op) (hk : ∀ op ∈ ops, Keeps op) :
    ∀ f ∈ (run (start limit scid dcid stok dtok) ops).sent, f.retirePriorTo ≤ f.seq := by
  suffices h : ∀ st, Inv st (atLeastTwo limit) → Good st → Good (run st ops) by
    refine (h _ (Inv.start limit scid dcid stok dtok) ⟨?_, ?_⟩).sent
    · simp [start, new, Ids.setInitialDcid]
    · simp [start]
  intro st
  induction ops generalizing st with
  | nil => intro _ hg; exact hg
  | cons op ops ih =>
    intro hi hg
    apply ih (fun o ho => hk o (List.mem_cons_of_mem _ ho))
    · unfold stepOpen
      split
      · exact hi
      · rename_i ho; exact hi.step (by simpa using ho) op
    · unfold stepOpen
      split
      · exact hg
      · exact hg.step hi op (hk op List.mem_cons_self)

example : ((run (start 2 [1] [2] none none)
    [.setLimit 3, .issue [3] 7 false, .issue [4] 8 false, .sendNew, .recvRetire 0 [3], .sendNew, .lostNew 1, .sendNew]).sent.map
      fun f => (f.seq, f.retirePriorTo)) = [(1, 1), (2, 1), (1, 0)] := by decide +kernel

end Verif.Props.C39
