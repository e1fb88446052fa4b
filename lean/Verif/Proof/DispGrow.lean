import Verif.Proof.DispLen

/-!
# Body channels only grow
-/

namespace Hyper

/-- The channels stay, and only more is sent on them. -/
def Ext (cs cs' : List Chan) : Prop :=
  ∀ (k : Nat) (ch : Chan), cs[k]? = some ch → ∃ (ch' : Chan) (l : List Item), cs'[k]? = some ch' ∧ ch'.id = ch.id ∧ ch'.len = ch.len ∧
    ch'.items = ch.items ++ l

theorem Ext.refl (cs : List Chan) : Ext cs cs := fun _ ch h => ⟨ch, [], h, rfl, rfl, by simp⟩

theorem Ext.trans {a b c : List Chan} (h : Ext a b) (h' : Ext b c) : Ext a c := by
  intro k ch hk
  obtain ⟨c1, l1, a1, a2, a3, a4⟩ := h k ch hk
  obtain ⟨c2, l2, b1, b2, b3, b4⟩ := h' k c1 a1
  exact ⟨c2, l1 ++ l2, b1, b2.trans a2, b3.trans a3, by rw [b4, a4, List.append_assoc]⟩

theorem Ext.upd (cs : List Chan) (k : Nat) (f : Chan → Chan) (hf : ∀ ch, ∃ l, (f ch).id = ch.id ∧ (f ch).len = ch.len ∧ (f ch).items = ch.items ++ l) :
    Ext cs (updChan cs k f) := by
  intro j ch hj
  by_cases hk : k = j
  · subst hk
    obtain ⟨l, h1, h2, h3⟩ := hf ch
    exact ⟨f ch, l, by simp [updChan, List.getElem?_modify, hj], h1, h2, h3⟩
  · exact ⟨ch, [], by simp [updChan, List.getElem?_modify, hj, hk], rfl, rfl, by simp⟩

theorem Ext.snoc (cs l : List Chan) : Ext cs (cs ++ l) := by
  intro k ch hk
  refine ⟨ch, [], ?_, rfl, rfl, by simp⟩
  rw [List.getElem?_append_left (List.getElem?_eq_some_iff.1 hk).1]
  exact hk

theorem Ext.dropSender (cs : List Chan) (k : Nat) : Ext cs (updChan cs k Chan.dropSender) := .upd _ _ _ fun ch => ⟨[], rfl, rfl, by simp [Chan.dropSender]⟩
theorem Ext.failed (cs : List Chan) (k : Nat) : Ext cs (updChan cs k Chan.fail) := .upd _ _ _ fun ch => ⟨[.error], rfl, rfl, rfl⟩

theorem ext_failBody (d : Disp) : Ext d.chans d.failBody.chans := by
  unfold Disp.failBody
  split
  · exact .failed _ _
  · exact .refl _

theorem ext_fail (d : Disp) : Ext d.chans d.fail.chans := ext_failBody d

theorem ext_recvErr (d : Disp) : Ext d.chans d.recvErr.chans := by
  unfold Disp.recvErr
  (repeat' split) <;> first | exact .refl _ | exact ext_fail d

theorem ext_newBody (d : Disp) (m : MsgIn) : Ext d.chans (d.newBody m).chans := by
  unfold Disp.newBody
  split
  · exact .refl _
  · refine Ext.trans ?_ (.snoc d.replaced _)
    unfold Disp.replaced
    split
    · exact .dropSender _ _
    · exact .refl _

theorem ext_recvHead (d : Disp) (m : MsgIn) : Ext d.chans (d.recvHead m).chans := by
  refine (ext_newBody d m).trans ?_
  unfold Disp.recvHead
  simp only
  (repeat' split) <;> first | exact .refl _ | exact ext_fail { d.newBody m with conn := { (d.newBody m).conn with upgrade := (d.newBody m).conn.upgrade || m.wantsUpgrade } }

theorem ext_afterHead (d : Disp) (o : HeadOut) : Ext d.chans (d.afterHead o).chans := by
  unfold Disp.afterHead
  cases o with
  | pending => exact .refl _
  | msg m => exact ext_recvHead d m
  | err => exact ext_recvErr d
  | timeout => exact ext_recvErr d
  | eof => simp only; split <;> exact .refl _

theorem ext_readHead (env : EncodeEnv) (d : Disp) (i : ReadIn) : Ext d.chans (d.readHead env i).chans := by
  have h : Ext d.chans (d.readHeadReady env i).chans :=
    ext_afterHead { d with conn := (d.conn.pollReadHead env i.t0 i.t1 i.parse i.notify d.headId).2 } _
  unfold Disp.readHead
  (repeat' split) <;> first | exact .refl _ | exact h

theorem ext_markComplete (d : Disp) (k : Nat) (b : Bool) : Ext d.chans (d.markComplete k b).chans := by
  unfold Disp.markComplete
  split
  · exact .upd _ _ _ fun ch => ⟨[], rfl, rfl, by simp⟩
  · exact .refl _

theorem ext_deliver (d : Disp) (k : Nat) (gone : Bool) (f : Chan → Chan)
    (hf : ∀ ch, ∃ l, (f ch).id = ch.id ∧ (f ch).len = ch.len ∧ (f ch).items = ch.items ++ l) : Ext d.chans (d.deliver k gone f).chans := by
  unfold Disp.deliver Disp.sendItem Disp.dropBody
  simp only
  (repeat' split) <;> first | exact .dropSender _ _ | exact .upd _ _ _ hf

theorem ext_afterPiece (d : Disp) (k : Nat) (gone : Bool) (o : BodyRes) : Ext d.chans (d.afterPiece k gone o).chans := by
  unfold Disp.afterPiece
  cases o with
  | pending => exact .refl _
  | data bs fin => exact (ext_markComplete d k fin).trans (ext_deliver _ _ _ _ fun ch => ⟨_, rfl, rfl, rfl⟩)
  | trailers fs => exact (ext_markComplete d k true).trans (ext_deliver _ _ _ _ fun ch => ⟨[], rfl, rfl, by simp⟩)
  | ended fin => exact (ext_markComplete d k fin).trans (.dropSender _ _)
  | err => exact .failed _ _

theorem ext_loseReader (d : Disp) (k : Nat) : Ext d.chans (d.loseReader k).chans := .upd _ _ _ fun ch => ⟨[], rfl, rfl, by simp⟩

theorem ext_readPiece (P : TrailerParser) (d : Disp) (i : ReadIn) (k : Nat) : Ext d.chans (d.readPiece P i k).chans := by
  unfold Disp.readPiece
  refine Ext.trans ?_ (ext_afterPiece _ _ _ _)
  unfold Disp.maybeLose
  split
  · exact ext_loseReader { d with conn := (d.conn.pollReadBody P i.rd i.notify).2 } k
  · exact .refl _

theorem ext_readTurn (env : EncodeEnv) (P : TrailerParser) (d : Disp) (i : ReadIn) : Ext d.chans (d.readTurn env P i).chans := by
  unfold Disp.readTurn
  split
  · exact .refl _
  · split
    · exact ext_readHead env d i
    · split
      · rename_i k _
        unfold Disp.readBody
        (repeat' split) <;> first | exact .refl _ | exact ext_readPiece P d i k | exact .dropSender _ _
      · unfold Disp.readIdle
        simp only
        split
        · exact ext_fail { d with conn := (d.conn.pollReadKeepAlive i.bufEmpty i.io).2 }
        · exact .refl _

theorem ext_endBody (d : Disp) : Ext d.chans d.endBody.chans := by
  unfold Disp.endBody
  simp only
  split
  · exact ext_fail { d with conn := d.conn.endBody.2 }
  · exact .refl _

theorem ext_flushTurn (d : Disp) (f : FlushIn) (i : NotifyIn) : Ext d.chans (d.flushTurn f i).chans := by
  unfold Disp.flushTurn
  simp only
  split
  · exact .refl _
  · exact ext_fail { d with conn := (d.conn.pollFlush f i).2 }

theorem ext_writeTurn (env : EncodeEnv) (d : Disp) (i : WriteIn) : Ext d.chans (d.writeTurn env i).chans := by
  unfold Disp.writeTurn
  split
  · exact .refl _
  · split
    · unfold Disp.writeHead
      (repeat' split) <;> first | exact .refl _ | exact ext_fail d
    · split
      · exact ext_flushTurn d _ _
      · split
        · split
          · unfold Disp.writeFrame
            (repeat' split) <;> first
              | exact .refl _
              | exact ext_endBody { d with bodyRx := false }
              | exact ext_fail { d with bodyRx := false }
          · exact .refl _
        · split
          · exact ext_endBody d
          · exact .refl _

theorem ext_complete (d : Disp) : Ext d.chans d.complete.chans := by
  unfold Disp.complete
  split
  · exact ext_fail { d with conn := { d.conn with error := false } }
  · exact .refl _

theorem ext_finishTurn (d : Disp) (s : Bool) (f : FlushIn) : Ext d.chans (d.finishTurn s f).chans := by
  unfold Disp.finishTurn
  split
  · exact .refl _
  · split
    · exact ext_complete { d with conn := { d.conn with upgrade := false } }
    · split
      · simp only
        split
        · exact .refl _
        · split
          · exact ext_complete { d with conn := (d.conn.pollShutdown f).2 }
          · exact ext_fail { d with conn := (d.conn.pollShutdown f).2 }
      · exact ext_complete d

theorem ext_want (d : Disp) (k : Nat) : Ext d.chans (d.want k).chans := by
  unfold Disp.want
  split
  · split
    · exact .upd _ _ _ fun ch => ⟨[], rfl, rfl, by simp⟩
    · exact .refl _
  · exact .refl _

theorem ext_step (env : EncodeEnv) (P : TrailerParser) (d : Disp) (a : Act) : Ext d.chans (d.step env P a).chans := by
  unfold Disp.step
  cases a with
  | read i => simp only; split; exact .refl _; exact ext_readTurn env P d i
  | write i => simp only; split; exact .refl _; exact ext_writeTurn env d i
  | flush f i => simp only; split; exact .refl _; exact ext_flushTurn d f i
  | readAgain => simp only; split <;> exact .refl _
  | finish s f => simp only; split; exact .refl _; exact ext_finishTurn d s f
  | disable b =>
    simp only
    split
    · exact .refl _
    · unfold Disp.disableKeepAlive
      simp only
      split <;> exact .refl _
  | want k =>
    exact ext_want d k
  | dropReader k => exact ext_loseReader d k
  | drop => exact ext_failBody d

end Hyper
