import Verif.Model.BodyChan
import Verif.Model.Incoming
import Verif.Model.ClientChan

/-!
# The repository's unit tests of the channels, run on the model: `src/body/incoming.rs` 509-640, `src/client/dispatch.rs` 427-483

In these tests the calls do not overlap: every call is run to its end.  Tests, not proofs (see `Conform/Heads.lean`).
Left out: `test_size_of` (the sizes of Rust's types) and the benchmarks.
-/

namespace Hyper.Conform

open BodyChan

/-- A call of the `Sender`, to its end. -/
def tcall (a : BodyChan.Act) : List BodyChan.Act := a :: List.replicate 8 .tx

/-- A call of the `Incoming`, or its drop, to its end. -/
def rcall (a : BodyChan.Act) : List BodyChan.Act := a :: List.replicate 14 .rx

/-- `Incoming::channel()` is one that nobody waits for (incoming.rs 109-111). -/
def chan (as : List (List BodyChan.Act)) : BodyChan.St := (BodyChan.init false).run as.flatten

def wanter (as : List (List BodyChan.Act)) : BodyChan.St := (BodyChan.init true).run as.flatten

/-! `channel_abort`: `abort` sends the error and drops the `Sender`. -/
example : (chan [tcall .sendError, tcall .dropSender, rcall .poll]).rlog = [.frame .error] := by decide +kernel

/-! `channel_abort_when_buffer_is_full` -/
example : (chan [tcall (.trySend [1]), tcall .sendError, tcall .dropSender, rcall .poll, rcall .poll]).rlog = [.frame (.data [1]), .frame .error] := by
  decide +kernel

/-! `channel_buffers_one` -/
example : (chan [tcall (.trySend [1]), tcall (.trySend [2])]).tlog = [.sent (.data [1]), .full] := by decide +kernel

/-! `channel_empty` -/
example : (chan [tcall .dropSender, rcall .poll]).rlog = [.ended] := by decide +kernel

/-! `channel_ready` -/
example : (chan [tcall .pollReady]).tlog = [.ready] := by decide +kernel

/-! `channel_wanter` -/
example : (wanter [tcall .pollReady]).tlog = [.wait 1] ∧ (wanter [tcall .pollReady]).twoken = [] := by decide +kernel
example : (wanter [tcall .pollReady, rcall .poll]).rlog = [.wait 1] ∧ (wanter [tcall .pollReady, rcall .poll]).twoken = [1] := by decide +kernel
example : (wanter [tcall .pollReady, rcall .poll, tcall .pollReady]).tlog = [.wait 1, .ready] := by decide +kernel

/-! `channel_notices_closure` -/
example : (wanter [tcall .pollReady, rcall .dropReader]).twoken = [1] := by decide +kernel
example : (wanter [tcall .pollReady, rcall .dropReader, tcall .pollReady]).tlog = [.wait 1, .closed] := by decide +kernel

/-! `size_hint` -/
example : optLen DecodedLength.ZERO = .exact 0 := by decide +kernel
example : optLen DecodedLength.CHUNKED = .unknown := by decide +kernel
example : optLen ⟨4⟩ = .exact 4 := by decide +kernel

/-- Request `i`, whose caller wants it back. -/
def ask (i : Nat) : List CAct := [.submit true, .permit ⟨i, true⟩, .push ⟨i, true⟩]

def queue (as : List (List CAct)) : CSt := ({} : CSt).run as.flatten

/-! `drop_receiver_sends_cancel_errors` -/
example : (queue [[.pollMsg false, .continue], ask 0, [.dropRx, .continue]]).log = [.asked, .submitted 0, .accepted 0, .outcome 0 (.error true)] := by
  decide +kernel

/-! `sender_checks_for_want_on_send` -/
example : (queue [ask 0, ask 1, [.pollMsg false], ask 2, [.pollMsg false, .continue], ask 3]).log =
    [.submitted 0, .accepted 0, .submitted 1, .outcome 1 (.error true), .encoded 0, .submitted 2, .outcome 2 (.error true), .asked, .submitted 3,
     .accepted 3] := by
  decide +kernel

/-- The same through the unbounded sender. -/
def askU (i : Nat) : List CAct := [.submitUnbounded true, .permit ⟨i, true⟩, .push ⟨i, true⟩]

/-! `unbounded_sender_doesnt_bound_on_want` -/
example : (queue [askU 0, askU 1, askU 2]).queue = [⟨0, true⟩, ⟨1, true⟩, ⟨2, true⟩] := by decide +kernel
example : (queue [askU 0, askU 1, askU 2, [.dropRx, .continue], askU 3]).log.getLast? = some (.outcome 3 (.error true)) := by decide +kernel

end Hyper.Conform
