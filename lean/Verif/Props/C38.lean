import Verif.Cid.Inv

/-!
C38: an endpoint never has more source connection IDs outstanding, beyond those it asks
the peer to retire, than the peer allows, and stores no more destination connection IDs
than it advertised.

`St.out` is the ledger of what the application was told it issued minus what the peer
retired, and `St.lim` the largest limit the peer gave; neither is read by the code.
-/

namespace Verif.Props.C38
open Verif Verif.Cid

variable {limit : Nat} {scid dcid : Bytes} {stok dtok : Option Nat}

/-- Whatever happened, the numbers still outstanding and not covered by the
`retire_prior_to` of the next NEW_CONNECTION_ID frame are at most as many as the peer
allows; so the peer, processing the frame, never ends up with too many. -/
theorem outstanding_le (ops : List Op) (f : NewFrame)
    (ho : (run (start limit scid dcid stok dtok) ops).closed = false)
    (hf : (run (start limit scid dcid stok dtok) ops).ids.sendNew.1 = .ok (some f)) :
    let st := run (start limit scid dcid stok dtok) ops
    (st.out.filter fun n => decide (f.retirePriorTo ≤ n)).length ≤ st.lim ∧ st.out.length ≤ 2 * st.lim - 1 ∧ f.seq ∈ st.out := by
  dsimp only
  obtain ⟨⟨out, hs, heq⟩, _⟩ := (Inv.start limit scid dcid stok dtok).run ops
  have heq := heq ho
  subst heq
  generalize run (start limit scid dcid stok dtok) ops = st at *
  unfold Ids.sendNew at hf
  split at hf
  · cases hf
  · rename_i seq _
    split at hf
    · cases hf
    · rename_i g hg
      simp only [Except.ok.injEq, Option.some.injEq] at hf
      subst hf
      unfold Ids.frameFor at hg
      split at hg
      · cases hg
      · rename_i e he
        split at hg
        · cases hg
        · cases hg
          refine ⟨?_, ?_, ?_⟩
          · have := hs.active
            rw [above_length] at this
            rw [hs.out]; exact this
          · rw [hs.out, List.length_map]
            exact Nat.le_trans hs.len hs.cap
          · rw [hs.out]
            have := find_seq_some he
            exact List.mem_map.mpr ⟨e, this.1, this.2⟩

/-- No number is issued twice. -/
theorem outstanding_nodup (ops : List Op) (ho : (run (start limit scid dcid stok dtok) ops).closed = false) :
    (run (start limit scid dcid stok dtok) ops).out.Nodup := by
  obtain ⟨⟨out, hs, heq⟩, _⟩ := (Inv.start limit scid dcid stok dtok).run ops
  rw [← heq ho, hs.out]; exact hs.nodup

/-- Asking for one more without agreeing to retire anything is refused, and changes
nothing, once the peer's limit is reached. -/
theorem issue_surplus (ops : List Op) (cid : Bytes) (tok : Nat) :
    let st := run (start limit scid dcid stok dtok) ops
    st.closed = false → st.ids.zeroLenScid = false → st.lim ≤ st.out.length →
    st.ids.newScid cid (some tok) true none false = (.error .idLimit, st.ids) := by
  intro st ho hz hl
  obtain ⟨⟨out, hs, heq⟩, _⟩ := (Inv.start limit scid dcid stok dtok).run ops
  have heq := heq ho
  unfold Ids.newScid
  rw [hz]
  have h1 : st.ids.scids.inner.length ≥ st.ids.sourceLimit := by
    have h2 : st.ids.sourceLimit ≤ st.lim := hs.limit
    have h3 : st.out.length = st.ids.scids.inner.length := by
      rw [show st.out = out from heq.symm, hs.out, List.length_map]
    omega
  rw [if_pos h1]
  simp only [Bool.false_eq_true, if_false, if_true]

/-- Never more destination connection IDs are stored than advertised, never none, and all
are different. -/
theorem stored_le (ops : List Op) :
    let st := run (start limit scid dcid stok dtok) ops
    st.ids.dcids.inner.length ≤ atLeastTwo limit ∧ st.ids.dcids.inner ≠ [] ∧
      (st.ids.dcids.inner.map (·.seq)).Nodup ∧ (st.ids.dcids.inner.map (·.cid)).Nodup := by
  obtain ⟨_, hd⟩ := (Inv.start limit scid dcid stok dtok).run ops
  exact ⟨hd.len, hd.ne, hd.nodup, hd.cids⟩

/-- A frame with a new connection ID that would be one too many, counting only those the
frame does not retire, is a connection ID limit error. -/
theorem frame_surplus (ops : List Op) (cid : Bytes) (seq tok rpt : Nat) :
    let st := run (start limit scid dcid stok dtok) ops
    st.ids.zeroLenDcid = false → (∀ e ∈ st.ids.dcids.inner, e.cid ≠ cid ∧ e.seq ≠ seq) →
    rpt ≤ seq → st.ids.peerRetirePriorTo ≤ seq →
    atLeastTwo limit ≤ (st.ids.dcids.inner.filter fun e => decide (rpt ≤ e.seq)).length →
    (st.ids.newDcid cid seq tok rpt).1 = .error .idLimit := by
  intro st hz hnew hr hp hl
  obtain ⟨_, hd⟩ := (Inv.start limit scid dcid stok dtok).run ops
  have hk : ¬ Known st.ids cid seq := by
    rintro ⟨e, he, h | h⟩
    · exact (hnew e he).1 h
    · exact (hnew e he).2 h
  rw [(newDcid_new hz hk hr hp).1]
  obtain ⟨⟨p, a1⟩, _, _, _, a5, _⟩ := afterRetire_spec st.ids seq rpt
  obtain ⟨_, _, _, _, _, a6, _⟩ := afterRetire_frame st.ids seq rpt
  have hnk : seq ∉ keys (afterRetire st.ids seq rpt).1.dcids.inner := by
    intro hm
    obtain ⟨e, he, hs⟩ := List.mem_map.mp hm
    exact (hnew e ((a5 e).mp he).1).2 hs
  have hle : (st.ids.dcids.inner.filter fun e => decide (rpt ≤ e.seq)).length ≤ (afterRetire st.ids seq rpt).1.dcids.inner.length := by
    have : (st.ids.dcids.inner.filter fun e => decide (rpt ≤ e.seq)) =
        ((afterRetire st.ids seq rpt).1.dcids.inner.filter fun e => decide (rpt ≤ e.seq)) := by
      rw [a1, List.filter_filter]
      apply List.filter_congr
      intro e he
      rw [Bool.eq_iff_iff]
      simp only [decide_eq_true_eq, Bool.and_eq_true]
      constructor
      · intro h
        refine ⟨h, ?_⟩
        have := (a5 e).mpr ⟨he, fun _ => h⟩
        rw [a1, List.mem_filter] at this
        exact this.2
      · exact fun h => h.1
    rw [this]
    exact List.length_filter_le _ _
  rcases insertDcid_cases (afterRetire st.ids seq rpt).1 ⟨cid, seq, some tok, none⟩ (afterRetire st.ids seq rpt).2 hnk with ⟨_, he⟩ | ⟨hf, _⟩
  · rw [he]
  · rw [a6, hd.cap] at hf
    omega

/-- Two are stored; the third is refused, unless it retires the first. -/
example :
    let st := run (start 2 [1] [2] none none) [.recvNew [3] 1 7 0]
    (st.ids.newDcid [4] 2 8 0).1 = .error .idLimit ∧ (st.ids.newDcid [4] 2 8 1).1 = .ok () := by decide +kernel

/-- Three outstanding with a limit of two, the frame asks for the retirement of one. -/
example :
    let st := run (start 2 [1] [2] none none) [.issue [3] 7 false, .sendNew, .issue [4] 8 true]
    st.out = [0, 1, 2] ∧ st.ids.sendNew.1 = .ok (some ⟨2, 1, [4], 8⟩) ∧ st.ids.newScid [5] (some 9) true none false = (.error .idLimit, st.ids) := by
  decide +kernel

end Verif.Props.C38
