import Verif.Path.Links

/-!
The links of connection IDs while a packet is processed.
-/

namespace Verif.Path
open Verif
open Verif.Cid (Ids Err Entry Deque)

/-- Every connection ID linked to a path is linked to one that exists. -/
def Conn.Linked (c : Conn) : Prop := Path.Linked c.paths.slots.length c.ids

variable {c c' : Conn}

theorem PathMap.upd_length (m : PathMap) (pid : Nat) (f : Path → Path) : (m.upd pid f).slots.length = m.slots.length := by
  simp [PathMap.upd]

theorem Conn.Linked.upd (h : c.Linked) (pid : Nat) (f : Path → Path) : ({ c with paths := c.paths.upd pid f } : Conn).Linked := by
  unfold Conn.Linked; rw [PathMap.upd_length]; exact h

theorem Conn.Linked.ids {n : Nat} {ids : Ids} (hn : c.paths.slots.length = n) (h : Path.Linked n ids) : ({ c with ids := ids } : Conn).Linked := by
  unfold Conn.Linked; dsimp only; rw [hn]; exact h

theorem Conn.Linked.repath (h : c.Linked) (l : List (Nat × Nat)) : (c.repath l).2.Linked := by
  induction l generalizing c with
  | nil => exact h
  | cons x l ih =>
    obtain ⟨seq, pid⟩ := x
    simp only [Conn.repath]
    split
    · exact h
    · rename_i p hp
      split
      · exact ih h
      · split
        · rename_i n _
          have h1 := h.upd pid fun p => { p with dcid := some n }
          have hl : Path.Linked (c.paths.upd pid fun p => { p with dcid := some n }).slots.length (c.ids.linkDcid n pid).2 :=
            Path.Linked.linkDcid h1 n (by rw [PathMap.upd_length]; exact PathMap.get_lt hp)
          split
          · rename_i heq; rw [heq] at hl; exact hl
          · rename_i heq; rw [heq] at hl; exact ih hl
        · exact ih (h.upd _ _)

theorem Conn.Linked.onNewCid (h : c.Linked) (cid : Bytes) (seq token rpt : Nat) : (c.onNewCid cid seq token rpt).2.Linked := by
  unfold Conn.onNewCid
  split
  · exact h
  · dsimp only
    have h1 : ({ c with ids := (c.ids.newDcid cid seq token rpt).2.2 } : Conn).Linked := Path.Linked.newDcid h cid seq token rpt
    have h2 := h1.repath (c.ids.newDcid cid seq token rpt).2.1
    split
    · rename_i heq; rw [heq] at h2; exact h2
    · rename_i heq; rw [heq] at h2; exact h2

theorem Conn.Linked.onRetire (h : c.Linked) (seq : Nat) (cid : Bytes) : (c.onRetire seq cid).2.Linked := by
  unfold Conn.onRetire
  split
  · exact h
  · have h1 : Path.Linked c.paths.slots.length (c.ids.retireScid seq cid).2 := Path.Linked.retireScid h seq cid
    split
    · rename_i heq; rw [heq] at h1; exact h1
    · rename_i heq; rw [heq] at h1; exact h1
    · rename_i pid ids heq
      rw [heq] at h1
      dsimp only
      split
      · exact h1
      · split
        · unfold Conn.Linked; dsimp only; rw [PathMap.upd_length]; exact h1
        · exact h1

theorem PathMap.onResponse_length {m m' : PathMap} {d : Nat} (h : m.onResponse d = .ok m') : m'.slots.length = m.slots.length :=
  (SameId.elem.onResponse (d := d) trivial h).len

theorem Conn.Linked.onFrame (h : c.Linked) (pid : Nat) (cid : Bytes) (f : Frame) : (c.onFrame pid cid f).2.Linked := by
  cases f with
  | newCid cid' seq token rpt => exact h.onNewCid cid' seq token rpt
  | retire seq => exact h.onRetire seq cid
  | challenge d =>
    simp only [Conn.onFrame]
    split
    · exact h
    · exact h.upd _ _
  | response d =>
    simp only [Conn.onFrame]
    split
    · exact h
    · rename_i m hm
      unfold Conn.Linked; dsimp only; rw [PathMap.onResponse_length hm]; exact h
  | padding => exact h
  | other => exact h

theorem Conn.Linked.onFrames (h : c.Linked) (pid : Nat) (cid : Bytes) (early : Bool) (fs : List Frame) : (c.onFrames pid cid early fs).2.Linked := by
  induction fs generalizing c with
  | nil => exact h
  | cons f fs ih =>
    simp only [Conn.onFrames]
    split
    · exact h
    · have h1 := h.onFrame pid cid f
      split
      · rename_i heq; rw [heq] at h1; exact h1
      · rename_i heq; rw [heq] at h1; exact ih h1

theorem Conn.Linked.allocate (h : c.Linked) (l : List Nat) : (c.allocate l).2.Linked := by
  induction l generalizing c with
  | nil => exact h
  | cons pid l ih =>
    simp only [Conn.allocate]
    split
    · exact ih h
    · rename_i p hp
      split
      · exact ih h
      · split
        · exact ih (h.upd _ _)
        · split
          · exact h
          · rename_i n _
            have h1 : Path.Linked c.paths.slots.length (c.ids.linkDcid n pid).2 := Path.Linked.linkDcid h n (PathMap.get_lt hp)
            split
            · rename_i heq; rw [heq] at h1; exact h1
            · rename_i heq
              rw [heq] at h1
              apply ih
              unfold Conn.Linked; dsimp only; rw [PathMap.upd_length]; exact h1

theorem Conn.Linked.of_rel {R : Path → Path → Prop} {m : PathMap} (h : c.Linked) (hr : Rel R c.paths m) : ({ c with paths := m } : Conn).Linked := by
  unfold Conn.Linked; dsimp only; rw [hr.len]; exact h

theorem Conn.Linked.setActive (h : c.Linked) (pid : Nat) : (c.setActive pid).2.Linked :=
  h.of_rel (SameId.elem.mapSetActive c.paths pid)

theorem Conn.Linked.reuseDcid (h : c.Linked) (old new : Nat) : (c.reuseDcid old new).2.Linked := by
  unfold Conn.reuseDcid
  split
  · exact h
  · split
    · split
      · exact h
      · exact h.upd _ _
    · exact h

theorem Conn.Linked.migration (h : c.Linked) (pid : Nat) (newest : Bool) : (c.migration pid newest).2.Linked := by
  unfold Conn.migration
  split
  · exact h
  · split
    · unfold Conn.onPeerMigrated
      split
      · exact h
      · split
        · exact h
        · have h1 := h.setActive pid
          split
          · rename_i heq; rw [heq] at h1; exact h1
          · rename_i heq; rw [heq] at h1; exact h1.reuseDcid _ _
    · exact h

theorem Conn.Linked.process (h : c.Linked) (pid : Nat) (cid : Bytes) (early : Bool) (fs : List Frame) (newest : Bool) :
    (c.process pid cid early fs newest).2.Linked := by
  unfold Conn.process
  have h1 := h.onFrames pid cid early fs
  split
  · rename_i heq; rw [heq] at h1; exact h1
  · rename_i c1 heq
    rw [heq] at h1
    have h2 := h1.allocate (List.range c1.paths.slots.length)
    split
    · rename_i heq2; rw [heq2] at h2; exact h2
    · rename_i heq2
      rw [heq2] at h2
      split
      · exact h2
      · exact h2.migration _ _

theorem Conn.Linked.recvLong (h : c.Linked) (hs early : Bool) (fs : List Frame) (newest : Bool) : (c.recvLong hs early fs newest).2.Linked := by
  unfold Conn.recvLong
  split
  · exact h
  · rename_i pid _
    have h1 := h.process pid [] early fs newest
    split
    · rename_i heq; rw [heq] at h1; exact h1
    · rename_i c1 heq
      rw [heq] at h1
      unfold Conn.verify
      split
      · exact h1.upd _ _
      · exact h1

theorem Conn.Linked.seenOn (h : c.Linked) (pid seq : Nat) (cid : Bytes) : (c.seenOn pid seq cid).2.Linked := by
  unfold Conn.seenOn
  split
  · exact h
  · rename_i p hp
    split
    · exact h
    · dsimp only
      have h1 := h.upd pid fun p => { p with scid := some seq }
      have h2 : Path.Linked (c.paths.upd pid fun p => { p with scid := some seq }).slots.length (c.ids.linkScid seq pid).2 :=
        Path.Linked.linkScid h1 seq (by rw [PathMap.upd_length]; exact PathMap.get_lt hp)
      split
      · rename_i heq; rw [heq] at h2; exact h2
      · rename_i heq; rw [heq] at h2; exact h2

end Verif.Path
