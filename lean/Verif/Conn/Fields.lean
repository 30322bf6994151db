import Verif.Conn.Model

/-! Field by field effect of the helpers of the connection model. -/

namespace Verif.Conn.Conn
open Verif Verif.Stream

@[simp] theorem put_streams (c : Conn) (id : Nat) (s : Stream) :
    (c.put id s).streams = Assoc.put c.streams id s := rfl

section Ite
variable (p : Prop) [Decidable p] (c d : Conn)
@[simp] theorem isServer_ite : (if p then c else d).isServer = if p then c.isServer else d.isServer := by
  split <;> rfl
@[simp] theorem loc_ite : (if p then c else d).loc = if p then c.loc else d.loc := by
  split <;> rfl
@[simp] theorem peer_ite : (if p then c else d).peer = if p then c.peer else d.peer := by
  split <;> rfl
@[simp] theorem maxStreamWindow_ite : (if p then c else d).maxStreamWindow = if p then c.maxStreamWindow else d.maxStreamWindow := by
  split <;> rfl
@[simp] theorem streams_ite : (if p then c else d).streams = if p then c.streams else d.streams := by
  split <;> rfl
@[simp] theorem collected_ite : (if p then c else d).collected = if p then c.collected else d.collected := by
  split <;> rfl
@[simp] theorem bidi_ite : (if p then c else d).bidi = if p then c.bidi else d.bidi := by
  split <;> rfl
@[simp] theorem uni_ite : (if p then c else d).uni = if p then c.uni else d.uni := by
  split <;> rfl
@[simp] theorem flushable_ite : (if p then c else d).flushable = if p then c.flushable else d.flushable := by
  split <;> rfl
@[simp] theorem readable_ite : (if p then c else d).readable = if p then c.readable else d.readable := by
  split <;> rfl
@[simp] theorem writable_ite : (if p then c else d).writable = if p then c.writable else d.writable := by
  split <;> rfl
@[simp] theorem almostFull_ite : (if p then c else d).almostFull = if p then c.almostFull else d.almostFull := by
  split <;> rfl
@[simp] theorem blocked_ite : (if p then c else d).blocked = if p then c.blocked else d.blocked := by
  split <;> rfl
@[simp] theorem reset_ite : (if p then c else d).reset = if p then c.reset else d.reset := by
  split <;> rfl
@[simp] theorem stopped_ite : (if p then c else d).stopped = if p then c.stopped else d.stopped := by
  split <;> rfl
@[simp] theorem txBuffered_ite : (if p then c else d).txBuffered = if p then c.txBuffered else d.txBuffered := by
  split <;> rfl
@[simp] theorem rxData_ite : (if p then c else d).rxData = if p then c.rxData else d.rxData := by
  split <;> rfl
@[simp] theorem fc_ite : (if p then c else d).fc = if p then c.fc else d.fc := by
  split <;> rfl
@[simp] theorem shouldSendMaxData_ite : (if p then c else d).shouldSendMaxData = if p then c.shouldSendMaxData else d.shouldSendMaxData := by
  split <;> rfl
@[simp] theorem shouldSendMaxStreamsBidi_ite : (if p then c else d).shouldSendMaxStreamsBidi = if p then c.shouldSendMaxStreamsBidi else d.shouldSendMaxStreamsBidi := by
  split <;> rfl
@[simp] theorem shouldSendMaxStreamsUni_ite : (if p then c else d).shouldSendMaxStreamsUni = if p then c.shouldSendMaxStreamsUni else d.shouldSendMaxStreamsUni := by
  split <;> rfl
@[simp] theorem txCap_ite : (if p then c else d).txCap = if p then c.txCap else d.txCap := by
  split <;> rfl
@[simp] theorem factorNum_ite : (if p then c else d).factorNum = if p then c.factorNum else d.factorNum := by
  split <;> rfl
@[simp] theorem factorDen_ite : (if p then c else d).factorDen = if p then c.factorDen else d.factorDen := by
  split <;> rfl
@[simp] theorem txData_ite : (if p then c else d).txData = if p then c.txData else d.txData := by
  split <;> rfl
@[simp] theorem maxTxData_ite : (if p then c else d).maxTxData = if p then c.maxTxData else d.maxTxData := by
  split <;> rfl
@[simp] theorem blockedLimit_ite : (if p then c else d).blockedLimit = if p then c.blockedLimit else d.blockedLimit := by
  split <;> rfl
@[simp] theorem frames_ite : (if p then c else d).frames = if p then c.frames else d.frames := by
  split <;> rfl
@[simp] theorem dead_ite : (if p then c else d).dead = if p then c.dead else d.dead := by
  split <;> rfl
@[simp] theorem crashed_ite : (if p then c else d).crashed = if p then c.crashed else d.crashed := by
  split <;> rfl
@[simp] theorem counts_ite (b : Bool) : (if p then c else d).counts b = if p then c.counts b else d.counts b := by
  split <;> rfl
end Ite

section
variable (c : Conn) (id : Nat) (s : Stream)
@[simp] theorem put_isServer : (c.put id s).isServer = c.isServer := rfl
@[simp] theorem put_loc : (c.put id s).loc = c.loc := rfl
@[simp] theorem put_peer : (c.put id s).peer = c.peer := rfl
@[simp] theorem put_maxStreamWindow : (c.put id s).maxStreamWindow = c.maxStreamWindow := rfl
@[simp] theorem put_collected : (c.put id s).collected = c.collected := rfl
@[simp] theorem put_bidi : (c.put id s).bidi = c.bidi := rfl
@[simp] theorem put_uni : (c.put id s).uni = c.uni := rfl
@[simp] theorem put_flushable : (c.put id s).flushable = c.flushable := rfl
@[simp] theorem put_readable : (c.put id s).readable = c.readable := rfl
@[simp] theorem put_writable : (c.put id s).writable = c.writable := rfl
@[simp] theorem put_almostFull : (c.put id s).almostFull = c.almostFull := rfl
@[simp] theorem put_blocked : (c.put id s).blocked = c.blocked := rfl
@[simp] theorem put_reset : (c.put id s).reset = c.reset := rfl
@[simp] theorem put_stopped : (c.put id s).stopped = c.stopped := rfl
@[simp] theorem put_txBuffered : (c.put id s).txBuffered = c.txBuffered := rfl
@[simp] theorem put_rxData : (c.put id s).rxData = c.rxData := rfl
@[simp] theorem put_fc : (c.put id s).fc = c.fc := rfl
@[simp] theorem put_shouldSendMaxData : (c.put id s).shouldSendMaxData = c.shouldSendMaxData := rfl
@[simp] theorem put_shouldSendMaxStreamsBidi : (c.put id s).shouldSendMaxStreamsBidi = c.shouldSendMaxStreamsBidi := rfl
@[simp] theorem put_shouldSendMaxStreamsUni : (c.put id s).shouldSendMaxStreamsUni = c.shouldSendMaxStreamsUni := rfl
@[simp] theorem put_txCap : (c.put id s).txCap = c.txCap := rfl
@[simp] theorem put_factorNum : (c.put id s).factorNum = c.factorNum := rfl
@[simp] theorem put_factorDen : (c.put id s).factorDen = c.factorDen := rfl
@[simp] theorem put_txData : (c.put id s).txData = c.txData := rfl
@[simp] theorem put_maxTxData : (c.put id s).maxTxData = c.maxTxData := rfl
@[simp] theorem put_blockedLimit : (c.put id s).blockedLimit = c.blockedLimit := rfl
@[simp] theorem put_frames : (c.put id s).frames = c.frames := rfl
@[simp] theorem put_dead : (c.put id s).dead = c.dead := rfl
@[simp] theorem put_crashed : (c.put id s).crashed = c.crashed := rfl
@[simp] theorem put_counts : (c.put id s).counts = c.counts := rfl
end

section
variable (c : Conn) (k : Key)
@[simp] theorem insertReadable_isServer : (c.insertReadable k).isServer = c.isServer := rfl
@[simp] theorem insertReadable_loc : (c.insertReadable k).loc = c.loc := rfl
@[simp] theorem insertReadable_peer : (c.insertReadable k).peer = c.peer := rfl
@[simp] theorem insertReadable_maxStreamWindow : (c.insertReadable k).maxStreamWindow = c.maxStreamWindow := rfl
@[simp] theorem insertReadable_streams : (c.insertReadable k).streams = c.streams := rfl
@[simp] theorem insertReadable_collected : (c.insertReadable k).collected = c.collected := rfl
@[simp] theorem insertReadable_bidi : (c.insertReadable k).bidi = c.bidi := rfl
@[simp] theorem insertReadable_uni : (c.insertReadable k).uni = c.uni := rfl
@[simp] theorem insertReadable_flushable : (c.insertReadable k).flushable = c.flushable := rfl
@[simp] theorem insertReadable_writable : (c.insertReadable k).writable = c.writable := rfl
@[simp] theorem insertReadable_almostFull : (c.insertReadable k).almostFull = c.almostFull := rfl
@[simp] theorem insertReadable_blocked : (c.insertReadable k).blocked = c.blocked := rfl
@[simp] theorem insertReadable_reset : (c.insertReadable k).reset = c.reset := rfl
@[simp] theorem insertReadable_stopped : (c.insertReadable k).stopped = c.stopped := rfl
@[simp] theorem insertReadable_txBuffered : (c.insertReadable k).txBuffered = c.txBuffered := rfl
@[simp] theorem insertReadable_rxData : (c.insertReadable k).rxData = c.rxData := rfl
@[simp] theorem insertReadable_fc : (c.insertReadable k).fc = c.fc := rfl
@[simp] theorem insertReadable_shouldSendMaxData : (c.insertReadable k).shouldSendMaxData = c.shouldSendMaxData := rfl
@[simp] theorem insertReadable_shouldSendMaxStreamsBidi : (c.insertReadable k).shouldSendMaxStreamsBidi = c.shouldSendMaxStreamsBidi := rfl
@[simp] theorem insertReadable_shouldSendMaxStreamsUni : (c.insertReadable k).shouldSendMaxStreamsUni = c.shouldSendMaxStreamsUni := rfl
@[simp] theorem insertReadable_txCap : (c.insertReadable k).txCap = c.txCap := rfl
@[simp] theorem insertReadable_factorNum : (c.insertReadable k).factorNum = c.factorNum := rfl
@[simp] theorem insertReadable_factorDen : (c.insertReadable k).factorDen = c.factorDen := rfl
@[simp] theorem insertReadable_txData : (c.insertReadable k).txData = c.txData := rfl
@[simp] theorem insertReadable_maxTxData : (c.insertReadable k).maxTxData = c.maxTxData := rfl
@[simp] theorem insertReadable_blockedLimit : (c.insertReadable k).blockedLimit = c.blockedLimit := rfl
@[simp] theorem insertReadable_frames : (c.insertReadable k).frames = c.frames := rfl
@[simp] theorem insertReadable_dead : (c.insertReadable k).dead = c.dead := rfl
@[simp] theorem insertReadable_crashed : (c.insertReadable k).crashed = c.crashed := rfl
@[simp] theorem insertReadable_counts : (c.insertReadable k).counts = c.counts := rfl
end

section
variable (c : Conn) (id : Nat)
@[simp] theorem removeReadable_isServer : (c.removeReadable id).isServer = c.isServer := rfl
@[simp] theorem removeReadable_loc : (c.removeReadable id).loc = c.loc := rfl
@[simp] theorem removeReadable_peer : (c.removeReadable id).peer = c.peer := rfl
@[simp] theorem removeReadable_maxStreamWindow : (c.removeReadable id).maxStreamWindow = c.maxStreamWindow := rfl
@[simp] theorem removeReadable_streams : (c.removeReadable id).streams = c.streams := rfl
@[simp] theorem removeReadable_collected : (c.removeReadable id).collected = c.collected := rfl
@[simp] theorem removeReadable_bidi : (c.removeReadable id).bidi = c.bidi := rfl
@[simp] theorem removeReadable_uni : (c.removeReadable id).uni = c.uni := rfl
@[simp] theorem removeReadable_flushable : (c.removeReadable id).flushable = c.flushable := rfl
@[simp] theorem removeReadable_writable : (c.removeReadable id).writable = c.writable := rfl
@[simp] theorem removeReadable_almostFull : (c.removeReadable id).almostFull = c.almostFull := rfl
@[simp] theorem removeReadable_blocked : (c.removeReadable id).blocked = c.blocked := rfl
@[simp] theorem removeReadable_reset : (c.removeReadable id).reset = c.reset := rfl
@[simp] theorem removeReadable_stopped : (c.removeReadable id).stopped = c.stopped := rfl
@[simp] theorem removeReadable_txBuffered : (c.removeReadable id).txBuffered = c.txBuffered := rfl
@[simp] theorem removeReadable_rxData : (c.removeReadable id).rxData = c.rxData := rfl
@[simp] theorem removeReadable_fc : (c.removeReadable id).fc = c.fc := rfl
@[simp] theorem removeReadable_shouldSendMaxData : (c.removeReadable id).shouldSendMaxData = c.shouldSendMaxData := rfl
@[simp] theorem removeReadable_shouldSendMaxStreamsBidi : (c.removeReadable id).shouldSendMaxStreamsBidi = c.shouldSendMaxStreamsBidi := rfl
@[simp] theorem removeReadable_shouldSendMaxStreamsUni : (c.removeReadable id).shouldSendMaxStreamsUni = c.shouldSendMaxStreamsUni := rfl
@[simp] theorem removeReadable_txCap : (c.removeReadable id).txCap = c.txCap := rfl
@[simp] theorem removeReadable_factorNum : (c.removeReadable id).factorNum = c.factorNum := rfl
@[simp] theorem removeReadable_factorDen : (c.removeReadable id).factorDen = c.factorDen := rfl
@[simp] theorem removeReadable_txData : (c.removeReadable id).txData = c.txData := rfl
@[simp] theorem removeReadable_maxTxData : (c.removeReadable id).maxTxData = c.maxTxData := rfl
@[simp] theorem removeReadable_blockedLimit : (c.removeReadable id).blockedLimit = c.blockedLimit := rfl
@[simp] theorem removeReadable_frames : (c.removeReadable id).frames = c.frames := rfl
@[simp] theorem removeReadable_dead : (c.removeReadable id).dead = c.dead := rfl
@[simp] theorem removeReadable_crashed : (c.removeReadable id).crashed = c.crashed := rfl
@[simp] theorem removeReadable_counts : (c.removeReadable id).counts = c.counts := rfl
end

section
variable (c : Conn) (k : Key)
@[simp] theorem insertWritable_isServer : (c.insertWritable k).isServer = c.isServer := rfl
@[simp] theorem insertWritable_loc : (c.insertWritable k).loc = c.loc := rfl
@[simp] theorem insertWritable_peer : (c.insertWritable k).peer = c.peer := rfl
@[simp] theorem insertWritable_maxStreamWindow : (c.insertWritable k).maxStreamWindow = c.maxStreamWindow := rfl
@[simp] theorem insertWritable_streams : (c.insertWritable k).streams = c.streams := rfl
@[simp] theorem insertWritable_collected : (c.insertWritable k).collected = c.collected := rfl
@[simp] theorem insertWritable_bidi : (c.insertWritable k).bidi = c.bidi := rfl
@[simp] theorem insertWritable_uni : (c.insertWritable k).uni = c.uni := rfl
@[simp] theorem insertWritable_flushable : (c.insertWritable k).flushable = c.flushable := rfl
@[simp] theorem insertWritable_readable : (c.insertWritable k).readable = c.readable := rfl
@[simp] theorem insertWritable_almostFull : (c.insertWritable k).almostFull = c.almostFull := rfl
@[simp] theorem insertWritable_blocked : (c.insertWritable k).blocked = c.blocked := rfl
@[simp] theorem insertWritable_reset : (c.insertWritable k).reset = c.reset := rfl
@[simp] theorem insertWritable_stopped : (c.insertWritable k).stopped = c.stopped := rfl
@[simp] theorem insertWritable_txBuffered : (c.insertWritable k).txBuffered = c.txBuffered := rfl
@[simp] theorem insertWritable_rxData : (c.insertWritable k).rxData = c.rxData := rfl
@[simp] theorem insertWritable_fc : (c.insertWritable k).fc = c.fc := rfl
@[simp] theorem insertWritable_shouldSendMaxData : (c.insertWritable k).shouldSendMaxData = c.shouldSendMaxData := rfl
@[simp] theorem insertWritable_shouldSendMaxStreamsBidi : (c.insertWritable k).shouldSendMaxStreamsBidi = c.shouldSendMaxStreamsBidi := rfl
@[simp] theorem insertWritable_shouldSendMaxStreamsUni : (c.insertWritable k).shouldSendMaxStreamsUni = c.shouldSendMaxStreamsUni := rfl
@[simp] theorem insertWritable_txCap : (c.insertWritable k).txCap = c.txCap := rfl
@[simp] theorem insertWritable_factorNum : (c.insertWritable k).factorNum = c.factorNum := rfl
@[simp] theorem insertWritable_factorDen : (c.insertWritable k).factorDen = c.factorDen := rfl
@[simp] theorem insertWritable_txData : (c.insertWritable k).txData = c.txData := rfl
@[simp] theorem insertWritable_maxTxData : (c.insertWritable k).maxTxData = c.maxTxData := rfl
@[simp] theorem insertWritable_blockedLimit : (c.insertWritable k).blockedLimit = c.blockedLimit := rfl
@[simp] theorem insertWritable_frames : (c.insertWritable k).frames = c.frames := rfl
@[simp] theorem insertWritable_dead : (c.insertWritable k).dead = c.dead := rfl
@[simp] theorem insertWritable_crashed : (c.insertWritable k).crashed = c.crashed := rfl
@[simp] theorem insertWritable_counts : (c.insertWritable k).counts = c.counts := rfl
end

section
variable (c : Conn) (id : Nat)
@[simp] theorem removeWritable_isServer : (c.removeWritable id).isServer = c.isServer := rfl
@[simp] theorem removeWritable_loc : (c.removeWritable id).loc = c.loc := rfl
@[simp] theorem removeWritable_peer : (c.removeWritable id).peer = c.peer := rfl
@[simp] theorem removeWritable_maxStreamWindow : (c.removeWritable id).maxStreamWindow = c.maxStreamWindow := rfl
@[simp] theorem removeWritable_streams : (c.removeWritable id).streams = c.streams := rfl
@[simp] theorem removeWritable_collected : (c.removeWritable id).collected = c.collected := rfl
@[simp] theorem removeWritable_bidi : (c.removeWritable id).bidi = c.bidi := rfl
@[simp] theorem removeWritable_uni : (c.removeWritable id).uni = c.uni := rfl
@[simp] theorem removeWritable_flushable : (c.removeWritable id).flushable = c.flushable := rfl
@[simp] theorem removeWritable_readable : (c.removeWritable id).readable = c.readable := rfl
@[simp] theorem removeWritable_almostFull : (c.removeWritable id).almostFull = c.almostFull := rfl
@[simp] theorem removeWritable_blocked : (c.removeWritable id).blocked = c.blocked := rfl
@[simp] theorem removeWritable_reset : (c.removeWritable id).reset = c.reset := rfl
@[simp] theorem removeWritable_stopped : (c.removeWritable id).stopped = c.stopped := rfl
@[simp] theorem removeWritable_txBuffered : (c.removeWritable id).txBuffered = c.txBuffered := rfl
@[simp] theorem removeWritable_rxData : (c.removeWritable id).rxData = c.rxData := rfl
@[simp] theorem removeWritable_fc : (c.removeWritable id).fc = c.fc := rfl
@[simp] theorem removeWritable_shouldSendMaxData : (c.removeWritable id).shouldSendMaxData = c.shouldSendMaxData := rfl
@[simp] theorem removeWritable_shouldSendMaxStreamsBidi : (c.removeWritable id).shouldSendMaxStreamsBidi = c.shouldSendMaxStreamsBidi := rfl
@[simp] theorem removeWritable_shouldSendMaxStreamsUni : (c.removeWritable id).shouldSendMaxStreamsUni = c.shouldSendMaxStreamsUni := rfl
@[simp] theorem removeWritable_txCap : (c.removeWritable id).txCap = c.txCap := rfl
@[simp] theorem removeWritable_factorNum : (c.removeWritable id).factorNum = c.factorNum := rfl
@[simp] theorem removeWritable_factorDen : (c.removeWritable id).factorDen = c.factorDen := rfl
@[simp] theorem removeWritable_txData : (c.removeWritable id).txData = c.txData := rfl
@[simp] theorem removeWritable_maxTxData : (c.removeWritable id).maxTxData = c.maxTxData := rfl
@[simp] theorem removeWritable_blockedLimit : (c.removeWritable id).blockedLimit = c.blockedLimit := rfl
@[simp] theorem removeWritable_frames : (c.removeWritable id).frames = c.frames := rfl
@[simp] theorem removeWritable_dead : (c.removeWritable id).dead = c.dead := rfl
@[simp] theorem removeWritable_crashed : (c.removeWritable id).crashed = c.crashed := rfl
@[simp] theorem removeWritable_counts : (c.removeWritable id).counts = c.counts := rfl
end

section
variable (c : Conn) (k : Key)
@[simp] theorem insertFlushable_isServer : (c.insertFlushable k).isServer = c.isServer := rfl
@[simp] theorem insertFlushable_loc : (c.insertFlushable k).loc = c.loc := rfl
@[simp] theorem insertFlushable_peer : (c.insertFlushable k).peer = c.peer := rfl
@[simp] theorem insertFlushable_maxStreamWindow : (c.insertFlushable k).maxStreamWindow = c.maxStreamWindow := rfl
@[simp] theorem insertFlushable_streams : (c.insertFlushable k).streams = c.streams := rfl
@[simp] theorem insertFlushable_collected : (c.insertFlushable k).collected = c.collected := rfl
@[simp] theorem insertFlushable_bidi : (c.insertFlushable k).bidi = c.bidi := rfl
@[simp] theorem insertFlushable_uni : (c.insertFlushable k).uni = c.uni := rfl
@[simp] theorem insertFlushable_readable : (c.insertFlushable k).readable = c.readable := rfl
@[simp] theorem insertFlushable_writable : (c.insertFlushable k).writable = c.writable := rfl
@[simp] theorem insertFlushable_almostFull : (c.insertFlushable k).almostFull = c.almostFull := rfl
@[simp] theorem insertFlushable_blocked : (c.insertFlushable k).blocked = c.blocked := rfl
@[simp] theorem insertFlushable_reset : (c.insertFlushable k).reset = c.reset := rfl
@[simp] theorem insertFlushable_stopped : (c.insertFlushable k).stopped = c.stopped := rfl
@[simp] theorem insertFlushable_txBuffered : (c.insertFlushable k).txBuffered = c.txBuffered := rfl
@[simp] theorem insertFlushable_rxData : (c.insertFlushable k).rxData = c.rxData := rfl
@[simp] theorem insertFlushable_fc : (c.insertFlushable k).fc = c.fc := rfl
@[simp] theorem insertFlushable_shouldSendMaxData : (c.insertFlushable k).shouldSendMaxData = c.shouldSendMaxData := rfl
@[simp] theorem insertFlushable_shouldSendMaxStreamsBidi : (c.insertFlushable k).shouldSendMaxStreamsBidi = c.shouldSendMaxStreamsBidi := rfl
@[simp] theorem insertFlushable_shouldSendMaxStreamsUni : (c.insertFlushable k).shouldSendMaxStreamsUni = c.shouldSendMaxStreamsUni := rfl
@[simp] theorem insertFlushable_txCap : (c.insertFlushable k).txCap = c.txCap := rfl
@[simp] theorem insertFlushable_factorNum : (c.insertFlushable k).factorNum = c.factorNum := rfl
@[simp] theorem insertFlushable_factorDen : (c.insertFlushable k).factorDen = c.factorDen := rfl
@[simp] theorem insertFlushable_txData : (c.insertFlushable k).txData = c.txData := rfl
@[simp] theorem insertFlushable_maxTxData : (c.insertFlushable k).maxTxData = c.maxTxData := rfl
@[simp] theorem insertFlushable_blockedLimit : (c.insertFlushable k).blockedLimit = c.blockedLimit := rfl
@[simp] theorem insertFlushable_frames : (c.insertFlushable k).frames = c.frames := rfl
@[simp] theorem insertFlushable_dead : (c.insertFlushable k).dead = c.dead := rfl
@[simp] theorem insertFlushable_crashed : (c.insertFlushable k).crashed = c.crashed := rfl
@[simp] theorem insertFlushable_counts : (c.insertFlushable k).counts = c.counts := rfl
end

section
variable (c : Conn) (id : Nat)
@[simp] theorem removeFlushable_isServer : (c.removeFlushable id).isServer = c.isServer := rfl
@[simp] theorem removeFlushable_loc : (c.removeFlushable id).loc = c.loc := rfl
@[simp] theorem removeFlushable_peer : (c.removeFlushable id).peer = c.peer := rfl
@[simp] theorem removeFlushable_maxStreamWindow : (c.removeFlushable id).maxStreamWindow = c.maxStreamWindow := rfl
@[simp] theorem removeFlushable_streams : (c.removeFlushable id).streams = c.streams := rfl
@[simp] theorem removeFlushable_collected : (c.removeFlushable id).collected = c.collected := rfl
@[simp] theorem removeFlushable_bidi : (c.removeFlushable id).bidi = c.bidi := rfl
@[simp] theorem removeFlushable_uni : (c.removeFlushable id).uni = c.uni := rfl
@[simp] theorem removeFlushable_readable : (c.removeFlushable id).readable = c.readable := rfl
@[simp] theorem removeFlushable_writable : (c.removeFlushable id).writable = c.writable := rfl
@[simp] theorem removeFlushable_almostFull : (c.removeFlushable id).almostFull = c.almostFull := rfl
@[simp] theorem removeFlushable_blocked : (c.removeFlushable id).blocked = c.blocked := rfl
@[simp] theorem removeFlushable_reset : (c.removeFlushable id).reset = c.reset := rfl
@[simp] theorem removeFlushable_stopped : (c.removeFlushable id).stopped = c.stopped := rfl
@[simp] theorem removeFlushable_txBuffered : (c.removeFlushable id).txBuffered = c.txBuffered := rfl
@[simp] theorem removeFlushable_rxData : (c.removeFlushable id).rxData = c.rxData := rfl
@[simp] theorem removeFlushable_fc : (c.removeFlushable id).fc = c.fc := rfl
@[simp] theorem removeFlushable_shouldSendMaxData : (c.removeFlushable id).shouldSendMaxData = c.shouldSendMaxData := rfl
@[simp] theorem removeFlushable_shouldSendMaxStreamsBidi : (c.removeFlushable id).shouldSendMaxStreamsBidi = c.shouldSendMaxStreamsBidi := rfl
@[simp] theorem removeFlushable_shouldSendMaxStreamsUni : (c.removeFlushable id).shouldSendMaxStreamsUni = c.shouldSendMaxStreamsUni := rfl
@[simp] theorem removeFlushable_txCap : (c.removeFlushable id).txCap = c.txCap := rfl
@[simp] theorem removeFlushable_factorNum : (c.removeFlushable id).factorNum = c.factorNum := rfl
@[simp] theorem removeFlushable_factorDen : (c.removeFlushable id).factorDen = c.factorDen := rfl
@[simp] theorem removeFlushable_txData : (c.removeFlushable id).txData = c.txData := rfl
@[simp] theorem removeFlushable_maxTxData : (c.removeFlushable id).maxTxData = c.maxTxData := rfl
@[simp] theorem removeFlushable_blockedLimit : (c.removeFlushable id).blockedLimit = c.blockedLimit := rfl
@[simp] theorem removeFlushable_frames : (c.removeFlushable id).frames = c.frames := rfl
@[simp] theorem removeFlushable_dead : (c.removeFlushable id).dead = c.dead := rfl
@[simp] theorem removeFlushable_crashed : (c.removeFlushable id).crashed = c.crashed := rfl
@[simp] theorem removeFlushable_counts : (c.removeFlushable id).counts = c.counts := rfl
end

section
variable (c : Conn) (id : Nat)
@[simp] theorem insertAlmostFull_isServer : (c.insertAlmostFull id).isServer = c.isServer := rfl
@[simp] theorem insertAlmostFull_loc : (c.insertAlmostFull id).loc = c.loc := rfl
@[simp] theorem insertAlmostFull_peer : (c.insertAlmostFull id).peer = c.peer := rfl
@[simp] theorem insertAlmostFull_maxStreamWindow : (c.insertAlmostFull id).maxStreamWindow = c.maxStreamWindow := rfl
@[simp] theorem insertAlmostFull_streams : (c.insertAlmostFull id).streams = c.streams := rfl
@[simp] theorem insertAlmostFull_collected : (c.insertAlmostFull id).collected = c.collected := rfl
@[simp] theorem insertAlmostFull_bidi : (c.insertAlmostFull id).bidi = c.bidi := rfl
@[simp] theorem insertAlmostFull_uni : (c.insertAlmostFull id).uni = c.uni := rfl
@[simp] theorem insertAlmostFull_flushable : (c.insertAlmostFull id).flushable = c.flushable := rfl
@[simp] theorem insertAlmostFull_readable : (c.insertAlmostFull id).readable = c.readable := rfl
@[simp] theorem insertAlmostFull_writable : (c.insertAlmostFull id).writable = c.writable := rfl
@[simp] theorem insertAlmostFull_blocked : (c.insertAlmostFull id).blocked = c.blocked := rfl
@[simp] theorem insertAlmostFull_reset : (c.insertAlmostFull id).reset = c.reset := rfl
@[simp] theorem insertAlmostFull_stopped : (c.insertAlmostFull id).stopped = c.stopped := rfl
@[simp] theorem insertAlmostFull_txBuffered : (c.insertAlmostFull id).txBuffered = c.txBuffered := rfl
@[simp] theorem insertAlmostFull_rxData : (c.insertAlmostFull id).rxData = c.rxData := rfl
@[simp] theorem insertAlmostFull_fc : (c.insertAlmostFull id).fc = c.fc := rfl
@[simp] theorem insertAlmostFull_shouldSendMaxData : (c.insertAlmostFull id).shouldSendMaxData = c.shouldSendMaxData := rfl
@[simp] theorem insertAlmostFull_shouldSendMaxStreamsBidi : (c.insertAlmostFull id).shouldSendMaxStreamsBidi = c.shouldSendMaxStreamsBidi := rfl
@[simp] theorem insertAlmostFull_shouldSendMaxStreamsUni : (c.insertAlmostFull id).shouldSendMaxStreamsUni = c.shouldSendMaxStreamsUni := rfl
@[simp] theorem insertAlmostFull_txCap : (c.insertAlmostFull id).txCap = c.txCap := rfl
@[simp] theorem insertAlmostFull_factorNum : (c.insertAlmostFull id).factorNum = c.factorNum := rfl
@[simp] theorem insertAlmostFull_factorDen : (c.insertAlmostFull id).factorDen = c.factorDen := rfl
@[simp] theorem insertAlmostFull_txData : (c.insertAlmostFull id).txData = c.txData := rfl
@[simp] theorem insertAlmostFull_maxTxData : (c.insertAlmostFull id).maxTxData = c.maxTxData := rfl
@[simp] theorem insertAlmostFull_blockedLimit : (c.insertAlmostFull id).blockedLimit = c.blockedLimit := rfl
@[simp] theorem insertAlmostFull_frames : (c.insertAlmostFull id).frames = c.frames := rfl
@[simp] theorem insertAlmostFull_dead : (c.insertAlmostFull id).dead = c.dead := rfl
@[simp] theorem insertAlmostFull_crashed : (c.insertAlmostFull id).crashed = c.crashed := rfl
@[simp] theorem insertAlmostFull_counts : (c.insertAlmostFull id).counts = c.counts := rfl
end

section
variable (c : Conn) (k : Key)
@[simp] theorem updatePriority_isServer : (c.updatePriority k).isServer = c.isServer := rfl
@[simp] theorem updatePriority_loc : (c.updatePriority k).loc = c.loc := rfl
@[simp] theorem updatePriority_peer : (c.updatePriority k).peer = c.peer := rfl
@[simp] theorem updatePriority_maxStreamWindow : (c.updatePriority k).maxStreamWindow = c.maxStreamWindow := rfl
@[simp] theorem updatePriority_streams : (c.updatePriority k).streams = c.streams := rfl
@[simp] theorem updatePriority_collected : (c.updatePriority k).collected = c.collected := rfl
@[simp] theorem updatePriority_bidi : (c.updatePriority k).bidi = c.bidi := rfl
@[simp] theorem updatePriority_uni : (c.updatePriority k).uni = c.uni := rfl
@[simp] theorem updatePriority_almostFull : (c.updatePriority k).almostFull = c.almostFull := rfl
@[simp] theorem updatePriority_blocked : (c.updatePriority k).blocked = c.blocked := rfl
@[simp] theorem updatePriority_reset : (c.updatePriority k).reset = c.reset := rfl
@[simp] theorem updatePriority_stopped : (c.updatePriority k).stopped = c.stopped := rfl
@[simp] theorem updatePriority_txBuffered : (c.updatePriority k).txBuffered = c.txBuffered := rfl
@[simp] theorem updatePriority_rxData : (c.updatePriority k).rxData = c.rxData := rfl
@[simp] theorem updatePriority_fc : (c.updatePriority k).fc = c.fc := rfl
@[simp] theorem updatePriority_shouldSendMaxData : (c.updatePriority k).shouldSendMaxData = c.shouldSendMaxData := rfl
@[simp] theorem updatePriority_shouldSendMaxStreamsBidi : (c.updatePriority k).shouldSendMaxStreamsBidi = c.shouldSendMaxStreamsBidi := rfl
@[simp] theorem updatePriority_shouldSendMaxStreamsUni : (c.updatePriority k).shouldSendMaxStreamsUni = c.shouldSendMaxStreamsUni := rfl
@[simp] theorem updatePriority_txCap : (c.updatePriority k).txCap = c.txCap := rfl
@[simp] theorem updatePriority_factorNum : (c.updatePriority k).factorNum = c.factorNum := rfl
@[simp] theorem updatePriority_factorDen : (c.updatePriority k).factorDen = c.factorDen := rfl
@[simp] theorem updatePriority_txData : (c.updatePriority k).txData = c.txData := rfl
@[simp] theorem updatePriority_maxTxData : (c.updatePriority k).maxTxData = c.maxTxData := rfl
@[simp] theorem updatePriority_blockedLimit : (c.updatePriority k).blockedLimit = c.blockedLimit := rfl
@[simp] theorem updatePriority_frames : (c.updatePriority k).frames = c.frames := rfl
@[simp] theorem updatePriority_dead : (c.updatePriority k).dead = c.dead := rfl
@[simp] theorem updatePriority_crashed : (c.updatePriority k).crashed = c.crashed := rfl
@[simp] theorem updatePriority_counts : (c.updatePriority k).counts = c.counts := rfl
end

section
variable (c : Conn) (b : Bool) (k : Counts)
@[simp] theorem setCounts_isServer : (c.setCounts b k).isServer = c.isServer := by
  unfold setCounts; split <;> rfl
@[simp] theorem setCounts_loc : (c.setCounts b k).loc = c.loc := by
  unfold setCounts; split <;> rfl
@[simp] theorem setCounts_peer : (c.setCounts b k).peer = c.peer := by
  unfold setCounts; split <;> rfl
@[simp] theorem setCounts_maxStreamWindow : (c.setCounts b k).maxStreamWindow = c.maxStreamWindow := by
  unfold setCounts; split <;> rfl
@[simp] theorem setCounts_streams : (c.setCounts b k).streams = c.streams := by
  unfold setCounts; split <;> rfl
@[simp] theorem setCounts_collected : (c.setCounts b k).collected = c.collected := by
  unfold setCounts; split <;> rfl
@[simp] theorem setCounts_flushable : (c.setCounts b k).flushable = c.flushable := by
  unfold setCounts; split <;> rfl
@[simp] theorem setCounts_readable : (c.setCounts b k).readable = c.readable := by
  unfold setCounts; split <;> rfl
@[simp] theorem setCounts_writable : (c.setCounts b k).writable = c.writable := by
  unfold setCounts; split <;> rfl
@[simp] theorem setCounts_almostFull : (c.setCounts b k).almostFull = c.almostFull := by
  unfold setCounts; split <;> rfl
@[simp] theorem setCounts_blocked : (c.setCounts b k).blocked = c.blocked := by
  unfold setCounts; split <;> rfl
@[simp] theorem setCounts_reset : (c.setCounts b k).reset = c.reset := by
  unfold setCounts; split <;> rfl
@[simp] theorem setCounts_stopped : (c.setCounts b k).stopped = c.stopped := by
  unfold setCounts; split <;> rfl
@[simp] theorem setCounts_txBuffered : (c.setCounts b k).txBuffered = c.txBuffered := by
  unfold setCounts; split <;> rfl
@[simp] theorem setCounts_rxData : (c.setCounts b k).rxData = c.rxData := by
  unfold setCounts; split <;> rfl
@[simp] theorem setCounts_fc : (c.setCounts b k).fc = c.fc := by
  unfold setCounts; split <;> rfl
@[simp] theorem setCounts_shouldSendMaxData : (c.setCounts b k).shouldSendMaxData = c.shouldSendMaxData := by
  unfold setCounts; split <;> rfl
@[simp] theorem setCounts_shouldSendMaxStreamsBidi : (c.setCounts b k).shouldSendMaxStreamsBidi = c.shouldSendMaxStreamsBidi := by
  unfold setCounts; split <;> rfl
@[simp] theorem setCounts_shouldSendMaxStreamsUni : (c.setCounts b k).shouldSendMaxStreamsUni = c.shouldSendMaxStreamsUni := by
  unfold setCounts; split <;> rfl
@[simp] theorem setCounts_txCap : (c.setCounts b k).txCap = c.txCap := by
  unfold setCounts; split <;> rfl
@[simp] theorem setCounts_factorNum : (c.setCounts b k).factorNum = c.factorNum := by
  unfold setCounts; split <;> rfl
@[simp] theorem setCounts_factorDen : (c.setCounts b k).factorDen = c.factorDen := by
  unfold setCounts; split <;> rfl
@[simp] theorem setCounts_txData : (c.setCounts b k).txData = c.txData := by
  unfold setCounts; split <;> rfl
@[simp] theorem setCounts_maxTxData : (c.setCounts b k).maxTxData = c.maxTxData := by
  unfold setCounts; split <;> rfl
@[simp] theorem setCounts_blockedLimit : (c.setCounts b k).blockedLimit = c.blockedLimit := by
  unfold setCounts; split <;> rfl
@[simp] theorem setCounts_frames : (c.setCounts b k).frames = c.frames := by
  unfold setCounts; split <;> rfl
@[simp] theorem setCounts_dead : (c.setCounts b k).dead = c.dead := by
  unfold setCounts; split <;> rfl
@[simp] theorem setCounts_crashed : (c.setCounts b k).crashed = c.crashed := by
  unfold setCounts; split <;> rfl
theorem setCounts_counts (b' : Bool) :
    (c.setCounts b k).counts b' = if b' = b then k else c.counts b' := by
  cases b <;> cases b' <;> rfl
end

section
variable (c : Conn) (id : Nat) (s : Stream)
@[simp] theorem collect_isServer : (c.collect id s).isServer = c.isServer := by
  unfold collect; split <;> simp
@[simp] theorem collect_loc : (c.collect id s).loc = c.loc := by
  unfold collect; split <;> simp
@[simp] theorem collect_peer : (c.collect id s).peer = c.peer := by
  unfold collect; split <;> simp
@[simp] theorem collect_maxStreamWindow : (c.collect id s).maxStreamWindow = c.maxStreamWindow := by
  unfold collect; split <;> simp
@[simp] theorem collect_almostFull : (c.collect id s).almostFull = c.almostFull := by
  unfold collect; split <;> simp
@[simp] theorem collect_blocked : (c.collect id s).blocked = c.blocked := by
  unfold collect; split <;> simp
@[simp] theorem collect_reset : (c.collect id s).reset = c.reset := by
  unfold collect; split <;> simp
@[simp] theorem collect_stopped : (c.collect id s).stopped = c.stopped := by
  unfold collect; split <;> simp
@[simp] theorem collect_txBuffered : (c.collect id s).txBuffered = c.txBuffered := by
  unfold collect; split <;> simp
@[simp] theorem collect_rxData : (c.collect id s).rxData = c.rxData := by
  unfold collect; split <;> simp
@[simp] theorem collect_fc : (c.collect id s).fc = c.fc := by
  unfold collect; split <;> simp
@[simp] theorem collect_shouldSendMaxData : (c.collect id s).shouldSendMaxData = c.shouldSendMaxData := by
  unfold collect; split <;> simp
@[simp] theorem collect_shouldSendMaxStreamsBidi : (c.collect id s).shouldSendMaxStreamsBidi = c.shouldSendMaxStreamsBidi := by
  unfold collect; split <;> simp
@[simp] theorem collect_shouldSendMaxStreamsUni : (c.collect id s).shouldSendMaxStreamsUni = c.shouldSendMaxStreamsUni := by
  unfold collect; split <;> simp
@[simp] theorem collect_txCap : (c.collect id s).txCap = c.txCap := by
  unfold collect; split <;> simp
@[simp] theorem collect_factorNum : (c.collect id s).factorNum = c.factorNum := by
  unfold collect; split <;> simp
@[simp] theorem collect_factorDen : (c.collect id s).factorDen = c.factorDen := by
  unfold collect; split <;> simp
@[simp] theorem collect_txData : (c.collect id s).txData = c.txData := by
  unfold collect; split <;> simp
@[simp] theorem collect_maxTxData : (c.collect id s).maxTxData = c.maxTxData := by
  unfold collect; split <;> simp
@[simp] theorem collect_blockedLimit : (c.collect id s).blockedLimit = c.blockedLimit := by
  unfold collect; split <;> simp
@[simp] theorem collect_frames : (c.collect id s).frames = c.frames := by
  unfold collect; split <;> simp
@[simp] theorem collect_dead : (c.collect id s).dead = c.dead := by
  unfold collect; split <;> simp
@[simp] theorem collect_crashed : (c.collect id s).crashed = c.crashed := by
  unfold collect; split <;> simp
@[simp] theorem collect_streams : (c.collect id s).streams = Assoc.del c.streams id := by
  unfold collect; split <;> simp
@[simp] theorem collect_collected : (c.collect id s).collected = Assoc.put c.collected id s := by
  unfold collect; split <;> simp
@[simp] theorem collect_readable : (c.collect id s).readable = qdel id c.readable := by
  unfold collect; split <;> simp
@[simp] theorem collect_writable : (c.collect id s).writable = qdel id c.writable := by
  unfold collect; split <;> simp
@[simp] theorem collect_flushable : (c.collect id s).flushable = qdel id c.flushable := by
  unfold collect; split <;> simp
theorem collect_counts (b : Bool) : (c.collect id s).counts b =
    if s.local' = false ∧ b = isBidi id then
      { c.counts b with localMaxNext := (c.counts b).localMaxNext + 1 }
    else c.counts b := by
  unfold collect
  cases hl : s.local' with
  | true => simp [counts]
  | false =>
    have h : ∀ (d : Conn) (x : List (Nat × Stream)) (y z w : List Key) (v : List (Nat × Stream)),
      ({ d with streams := x, readable := y, writable := z, flushable := w, collected := v } : Conn).counts b
        = d.counts b := fun _ _ _ _ _ _ => rfl
    simp only [Bool.false_eq_true, if_false, h, setCounts_counts, true_and]
    split
    · next h => subst h; rfl
    · rfl
end

section
variable (c : Conn) (id : Nat) (k : Counts) (s : Stream)
@[simp] theorem addStream_isServer : (c.addStream id k s).isServer = c.isServer := by
  unfold addStream; split <;> simp
@[simp] theorem addStream_loc : (c.addStream id k s).loc = c.loc := by
  unfold addStream; split <;> simp
@[simp] theorem addStream_peer : (c.addStream id k s).peer = c.peer := by
  unfold addStream; split <;> simp
@[simp] theorem addStream_maxStreamWindow : (c.addStream id k s).maxStreamWindow = c.maxStreamWindow := by
  unfold addStream; split <;> simp
@[simp] theorem addStream_collected : (c.addStream id k s).collected = c.collected := by
  unfold addStream; split <;> simp
@[simp] theorem addStream_flushable : (c.addStream id k s).flushable = c.flushable := by
  unfold addStream; split <;> simp
@[simp] theorem addStream_readable : (c.addStream id k s).readable = c.readable := by
  unfold addStream; split <;> simp
@[simp] theorem addStream_almostFull : (c.addStream id k s).almostFull = c.almostFull := by
  unfold addStream; split <;> simp
@[simp] theorem addStream_blocked : (c.addStream id k s).blocked = c.blocked := by
  unfold addStream; split <;> simp
@[simp] theorem addStream_reset : (c.addStream id k s).reset = c.reset := by
  unfold addStream; split <;> simp
@[simp] theorem addStream_stopped : (c.addStream id k s).stopped = c.stopped := by
  unfold addStream; split <;> simp
@[simp] theorem addStream_txBuffered : (c.addStream id k s).txBuffered = c.txBuffered := by
  unfold addStream; split <;> simp
@[simp] theorem addStream_rxData : (c.addStream id k s).rxData = c.rxData := by
  unfold addStream; split <;> simp
@[simp] theorem addStream_fc : (c.addStream id k s).fc = c.fc := by
  unfold addStream; split <;> simp
@[simp] theorem addStream_shouldSendMaxData : (c.addStream id k s).shouldSendMaxData = c.shouldSendMaxData := by
  unfold addStream; split <;> simp
@[simp] theorem addStream_shouldSendMaxStreamsBidi : (c.addStream id k s).shouldSendMaxStreamsBidi = c.shouldSendMaxStreamsBidi := by
  unfold addStream; split <;> simp
@[simp] theorem addStream_shouldSendMaxStreamsUni : (c.addStream id k s).shouldSendMaxStreamsUni = c.shouldSendMaxStreamsUni := by
  unfold addStream; split <;> simp
@[simp] theorem addStream_txCap : (c.addStream id k s).txCap = c.txCap := by
  unfold addStream; split <;> simp
@[simp] theorem addStream_factorNum : (c.addStream id k s).factorNum = c.factorNum := by
  unfold addStream; split <;> simp
@[simp] theorem addStream_factorDen : (c.addStream id k s).factorDen = c.factorDen := by
  unfold addStream; split <;> simp
@[simp] theorem addStream_txData : (c.addStream id k s).txData = c.txData := by
  unfold addStream; split <;> simp
@[simp] theorem addStream_maxTxData : (c.addStream id k s).maxTxData = c.maxTxData := by
  unfold addStream; split <;> simp
@[simp] theorem addStream_blockedLimit : (c.addStream id k s).blockedLimit = c.blockedLimit := by
  unfold addStream; split <;> simp
@[simp] theorem addStream_frames : (c.addStream id k s).frames = c.frames := by
  unfold addStream; split <;> simp
@[simp] theorem addStream_dead : (c.addStream id k s).dead = c.dead := by
  unfold addStream; split <;> simp
@[simp] theorem addStream_crashed : (c.addStream id k s).crashed = c.crashed := by
  unfold addStream; split <;> simp
@[simp] theorem addStream_streams : (c.addStream id k s).streams = Assoc.put c.streams id s := by
  unfold addStream; split <;> simp
@[simp] theorem addStream_writable : (c.addStream id k s).writable =
    if s.isWritable then qins s.key c.writable else c.writable := by
  unfold addStream; simp
theorem addStream_counts (b : Bool) : (c.addStream id k s).counts b =
    if b = isBidi id then k else c.counts b := by
  rw [← setCounts_counts]
  unfold addStream; simp only; split <;> rfl
end

@[simp] theorem insertReadable_readable (c : Conn) (k : Key) :
    (c.insertReadable k).readable = qadd k c.readable := rfl
@[simp] theorem removeReadable_readable (c : Conn) (id : Nat) :
    (c.removeReadable id).readable = qdel id c.readable := rfl
@[simp] theorem insertWritable_writable (c : Conn) (k : Key) :
    (c.insertWritable k).writable = qadd k c.writable := rfl
@[simp] theorem removeWritable_writable (c : Conn) (id : Nat) :
    (c.removeWritable id).writable = qdel id c.writable := rfl
@[simp] theorem insertFlushable_flushable (c : Conn) (k : Key) :
    (c.insertFlushable k).flushable = qadd k c.flushable := rfl
@[simp] theorem removeFlushable_flushable (c : Conn) (id : Nat) :
    (c.removeFlushable id).flushable = qdel id c.flushable := rfl

theorem get_put (c : Conn) (id id' : Nat) (s : Stream) :
    (c.put id s).get id' = if id = id' then some s else c.get id' := Assoc.get_put ..

@[simp] theorem get_put_self (c : Conn) (id : Nat) (s : Stream) : (c.put id s).get id = some s := by
  simp [get_put]

end Verif.Conn.Conn
