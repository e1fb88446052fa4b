import Verif.Proof.Errors

/-!
# Errors: C85

What a HTTP/1 connection reports is what happened.
-/

namespace Hyper

open Errors

namespace Spec

/-! ## What can go wrong, and how it is called -/

/-- The connection looks for a head in this turn. -/
def AsksHead (d : Disp) (i : ReadIn) : Prop :=
  d.done = false ∧ d.closing = false ∧ d.conn.canReadHead = true ∧
    ((d.conn.client = false ∧ d.inFlight = none) ∨ (d.conn.client = true ∧ d.inFlight.isSome = true ∧ i.ready = true))

/-- The time for reading a head is over. -/
def Late (c : Conn) (i : ReadIn) : Prop :=
  (c.timing = true ∧ ∃ t, c.deadline = some t ∧ t ≤ i.t1) ∨ (c.timing = false ∧ ∃ t, c.timeout = some t ∧ i.t0 + t ≤ i.t1)

/-- The client has sent something to which the answer has not come. -/
def Awaits (c : Conn) : Prop := c.client = true ∧ c.ka ≠ .idle

/-- The requests that are answered with an error: all errors of heads but the preface of HTTP/2, a bad status, an internal error. -/
def Answerable : ParseErr → Bool
  | .versionH2 => false
  | .status => false
  | .internal => false
  | _ => true

/-- The connection answers the peer that it has not understood. -/
def Answers (c : Conn) (e : ParseErr) (h2 : Bool) : Prop := c.client = false ∧ c.writing = .init ∧ h2 = false ∧ Answerable e = true

/-- The connection looks whether the peer is still there, reading neither a head nor a body. -/
def Watches (d : Disp) : Prop :=
  d.done = false ∧ d.closing = false ∧ d.conn.canReadHead = false ∧ d.bodyTx = none ∧ d.conn.reading ≠ .closed

/-- Between two messages. -/
def Between (c : Conn) : Prop := c.reading = .init ∧ c.writing = .init

/-- The service's future, or the queue of requests, is polled. -/
def AsksUser (d : Disp) : Prop :=
  d.done = false ∧ d.closing = false ∧ d.bodyRx = false ∧ d.conn.canWriteHead = true ∧ d.shouldPoll = true

/-- The connection goes on with the body it is to write. -/
def Writes (d : Disp) : Prop :=
  d.done = false ∧ d.closing = false ∧ ¬ AsksUser d ∧ d.conn.canBufferBody = true ∧ d.conn.canWriteBody = true

/-- Bytes are missing at the end of the body. -/
def Short (c : Conn) : Prop := ∃ enc n, c.writing = .body enc ∧ enc.finish = .error n

/-- The transport is asked to take the bytes waiting. -/
inductive Flushes (d : Disp) : Act → FlushIn → NotifyIn → Prop where
  | flush {f i} : d.done = false → Flushes d (.flush f i) f i
  | write {i : WriteIn} : d.done = false → d.closing = false → ¬ AsksUser d → d.conn.canBufferBody = false → Flushes d (.write i) i.flush i.notify

/-- What ends the connection at once, and the error for it. -/
inductive Ends (d : Disp) : Act → Why → Err → Prop where
  /-- The head has not come in time. -/
  | late {i w} : AsksHead d i → i.parse = .pending → Late d.conn i → Ends d (.read i) w ⟨.headerTimeout, []⟩
  /-- The head is not one. -/
  | head {i w e rest h2} : AsksHead d i → i.parse = .error (some e) rest h2 → ¬ (h2 = true ∧ d.conn.writing = .init) → ¬ Answers d.conn e h2 →
      Ends d (.read i) w ⟨.parse e, []⟩
  /-- It is the preface of HTTP/2. -/
  | preface {i w e rest} : AsksHead d i → i.parse = .error e rest true → e.isSome = true ∨ rest = true ∨ Awaits d.conn → d.conn.writing = .init →
      Ends d (.read i) w ⟨.parse .versionH2, []⟩
  /-- The transport ended within a head, or before the head that is awaited. -/
  | cut {i w rest h2} : AsksHead d i → i.parse = .error none rest h2 → w.ended = true → rest = true ∨ Awaits d.conn →
      ¬ (h2 = true ∧ d.conn.writing = .init) → Ends d (.read i) w ⟨.incompleteMessage, []⟩
  /-- The transport failed there. -/
  | broken {i w rest h2} : AsksHead d i → i.parse = .error none rest h2 → w.ended = false → rest = true ∨ Awaits d.conn →
      ¬ (h2 = true ∧ d.conn.writing = .init) → Ends d (.read i) w ⟨.io, w.cause⟩
  /-- Bytes came between two messages. -/
  | noise {i w} : Watches d → Between d.conn → i.bufEmpty = false ∨ i.io = .bytes → Ends d (.read i) w ⟨.unexpectedMessage, []⟩
  /-- The transport failed when the connection looked whether the peer is there. -/
  | watched {i w} : Watches d → i.bufEmpty = true → i.io = .error → Between d.conn ∨ d.conn.halfClose = false → Ends d (.read i) w ⟨.io, w.cause⟩
  /-- The transport ended before the exchange was over. -/
  | left {i w} : Watches d → i.bufEmpty = true → i.io = .eof → (Between d.conn ∧ Awaits d.conn) ∨ (¬ Between d.conn ∧ d.conn.halfClose = false) →
      Ends d (.read i) w ⟨.incompleteMessage, []⟩
  /-- The service failed. -/
  | service {i w} : AsksUser d → d.conn.client = false → i.msg = .err → Ends d (.write i) w ⟨.user .service, w.cause⟩
  /-- The body to be sent failed. -/
  | body {i w} : Writes d → d.bodyRx = true → i.frame = .frame .error → Ends d (.write i) w ⟨.user .body, w.cause⟩
  /-- The body to be sent was too short. -/
  | short {i w} : Writes d → (d.bodyRx = false ∨ i.frame = .eof ∨ i.frame = .frame (.data [] true)) → Short d.conn →
      Ends d (.write i) w ⟨.user .bodyWriteAborted, [.other]⟩
  /-- The transport did not take the bytes. -/
  | flush {a w f i} : Flushes d a f i → (d.conn.pollFlush f i).1 = .error → Ends d a w ⟨.bodyWrite, w.cause⟩
  /-- The transport took none of them. -/
  | zero {a w f i} : Flushes d a f i → (d.conn.pollFlush f i).1 = .writeZero → Ends d a w ⟨.bodyWrite, [.other]⟩
  /-- A buffer panicked. -/
  | panic {a w f i} : Flushes d a f i → (d.conn.pollFlush f i).1 = .panic → Ends d a w ⟨.panicked, []⟩
  /-- Closing the transport failed. -/
  | shut {f w} : d.done = false → d.isDone = true → d.conn.upgrade = false → (d.conn.pollShutdown f).1 = .error → Ends d (.finish true f) w ⟨.shutdown, w.cause⟩
  | shutZero {f w} : d.done = false → d.isDone = true → d.conn.upgrade = false → (d.conn.pollShutdown f).1 = .writeZero → Ends d (.finish true f) w ⟨.shutdown, [.other]⟩
  | shutPanic {f w} : d.done = false → d.isDone = true → d.conn.upgrade = false → (d.conn.pollShutdown f).1 = .panic → Ends d (.finish true f) w ⟨.panicked, []⟩

/-- The connection is, or becomes, ready for the next message, and looks at the transport in passing. -/
def Looks (c : Conn) : Prop :=
  (c.reading = .init ∧ ∀ enc, c.writing ≠ .body enc) ∨ (c.reading = .keepAlive ∧ c.writing = .keepAlive ∧ c.ka = .busy)

/-- A piece of a body is read in this turn, for its reader, or because there is none any more. -/
def ReadsBody (d : Disp) (i : ReadIn) (dec : Decoder) : Prop :=
  d.done = false ∧ d.closing = false ∧ (d.conn.reading = .body dec ∨ d.conn.reading = .cont dec) ∧
    ∃ k, d.bodyTx = some k ∧ (((d.chans[k]?).map Chan.want = some .ready ∧ i.full = false) ∨
      ((d.chans[k]?).map Chan.want ≠ some .ready ∧ (d.chans[k]?).map Chan.want ≠ some .pending))

/-- The piece is the last one. -/
def Finishes (P : TrailerParser) (dec : Decoder) (rd : Rd) : Prop :=
  (∃ fs, (dec.decode P rd).1 = .ready (.ok (.trailers fs))) ∨ (∃ bs, (dec.decode P rd).1 = .ready (.ok (.data bs)) ∧ (dec.decode P rd).2.1.isEof = true)

/-- What is told when the connection has ended for it. -/
inductive Remembers (env : EncodeEnv) (P : TrailerParser) (d : Disp) : Act → Why → Err → Prop where
  /-- The head is not one; the peer is told first. -/
  | head {i w e rest h2} : AsksHead d i → i.parse = .error (some e) rest h2 → Answers d.conn e h2 → Remembers env P d (.read i) w ⟨.parse e, []⟩
  /-- The response cannot be sent. -/
  | header {i w m} : AsksUser d → d.conn.client = false → i.msg = .resp m → (d.conn.respEnc env m).2 = .userHeader →
      Remembers env P d (.write i) w ⟨.user .unexpectedHeader, []⟩
  | status {i w m} : AsksUser d → d.conn.client = false → i.msg = .resp m → (d.conn.respEnc env m).2 = .unsupportedStatus →
      Remembers env P d (.write i) w ⟨.user .unsupportedStatusCode, []⟩
  | panic {i w m} : AsksUser d → d.conn.client = false → i.msg = .resp m → (d.conn.respEnc env m).2 = .panic → Remembers env P d (.write i) w ⟨.panicked, []⟩
  | panicReq {i w h body} : AsksUser d → d.conn.client = true → i.msg = .req h body → (d.conn.reqEnc h body).2 = .panic → Remembers env P d (.write i) w ⟨.panicked, []⟩
  /-- The transport failed when it was looked at in passing: after a flush, after a response without a body, after a body. -/
  | flushed {a w f} : Flushes d a f .error → (d.conn.pollFlush f .error).1 = .ok → Looks d.conn → Remembers env P d a w ⟨.io, w.cause⟩
  | noBody {i w m} : AsksHead d i → d.conn.client = true → i.parse = .msg m → m.decode = DecodedLength.ZERO → m.keepAlive = true → d.conn.ka ≠ .disabled →
      d.conn.writing = .keepAlive → i.notify = .error → Remembers env P d (.read i) w ⟨.io, w.cause⟩
  | ended {i w dec} : ReadsBody d i dec → Finishes P dec i.rd → d.conn.writing = .keepAlive → d.conn.ka = .busy → i.notify = .error →
      Remembers env P d (.read i) w ⟨.io, w.cause⟩

end Spec

open Spec

/-! ## The model gives these errors -/

theorem late_iff (c : Conn) (i : ReadIn) : (c.startTimer i.t0).timedOut i.t1 = true ↔ Late c i := by
  unfold Conn.startTimer Late
  cases ht : c.timing
  · cases ho : c.timeout with
    | none => simp [Conn.timedOut, ht]
    | some t => simp [Conn.timedOut]
  · cases hd : c.deadline with
    | none => simp [Conn.timedOut, ht, hd]
    | some t => simp [Conn.timedOut, ht, hd]

theorem answers_iff (e : ParseErr) : (serverOnError e).isSome = Answerable e := by
  cases e <;> rfl

theorem headFault_ends {d : Disp} {i : ReadIn} (h : AsksHead d i) (w : Why) (e : Err) : d.conn.headFault i w = some e ↔ Ends d (.read i) w e := by
  constructor
  · intro hf
    unfold Conn.headFault at hf
    cases hp : i.parse with
    | pending =>
      simp only [hp] at hf
      split at hf
      · rename_i ht
        cases hf
        exact .late h hp ((late_iff _ _).mp ht)
      · cases hf
    | error pe rest h2 =>
      simp only [hp] at hf
      split at hf
      · rename_i hm
        unfold Conn.onParseFault at hf
        have hw : (d.conn.startTimer i.t0).closeRead.writing = d.conn.writing := writing_startTimer _ _
        have hc : (d.conn.startTimer i.t0).closeRead.client = d.conn.client := client_startTimer _ _
        rw [hw] at hf
        have base : ∀ (hn : ¬ (h2 = true ∧ d.conn.writing = .init)) (hna : ∀ p, pe = some p → ¬ Answers d.conn p h2), Conn.parseErr pe w = e → Ends d (.read i) w e := by
          intro hn hna he
          subst he
          cases pe with
          | some p => exact .head h hp hn (hna p rfl)
          | none =>
            have hr : rest = true ∨ Awaits d.conn := by
              simp only [Option.isSome_none, Bool.false_or, Bool.or_eq_true, Bool.and_eq_true, bne_iff_ne, ne_eq] at hm
              exact hm
            unfold Conn.parseErr
            simp only
            split
            · rename_i hen
              exact .cut h hp hen hr hn
            · rename_i hen
              exact .broken h hp (by simpa using hen) hr hn
        split at hf
        · rename_i hwi
          split at hf
          · rename_i hh
            cases hf
            subst hh
            refine .preface h hp ?_ hwi
            simp only [Bool.or_eq_true, Bool.and_eq_true, bne_iff_ne, ne_eq, or_assoc] at hm
            exact hm
          · rename_i hh
            split at hf
            · cases hf
            · rename_i ho
              refine base (fun hx => hh hx.1) ?_ (by simpa using hf)
              rintro p rfl ⟨ha, _, _, hb⟩
              have hcl : (d.conn.startTimer i.t0).closeRead.client = false := hc.trans ha
              unfold Conn.onError at ho
              rw [hcl] at ho
              have := answers_iff p
              simp only [Bool.false_eq_true, if_false, Option.bind_some] at ho
              rw [ho, hb] at this
              cases this
        · rename_i hwi
          exact base (fun hx => hwi hx.2) (fun p _ ha => hwi ha.2.1) (by simpa using hf)
      · cases hf
    | msg m => simp [hp] at hf
  · intro he
    have hw : (d.conn.startTimer i.t0).closeRead.writing = d.conn.writing := writing_startTimer _ _
    have hc : (d.conn.startTimer i.t0).closeRead.client = d.conn.client := client_startTimer _ _
    unfold Conn.headFault
    have none_of : ∀ (pe : Option ParseErr), (∀ p, pe = some p → d.conn.client = true ∨ Answerable p = false) →
        (d.conn.startTimer i.t0).closeRead.onError pe = none := by
      intro pe hpe
      unfold Conn.onError
      rw [hc]
      cases hcl : d.conn.client
      · cases pe with
        | none => rfl
        | some p =>
          rcases hpe p rfl with hq | hq
          · rw [hcl] at hq; cases hq
          · have := answers_iff p
            rw [hq] at this
            simpa using this
      · simp
    have tail : ∀ (pe : Option ParseErr) (h2 : Bool), ¬ (h2 = true ∧ d.conn.writing = .init) →
        (d.conn.writing = .init → ∀ p, pe = some p → d.conn.client = true ∨ Answerable p = false) →
        (d.conn.startTimer i.t0).closeRead.onParseFault pe h2 w = some (Conn.parseErr pe w) := by
      intro pe h2 hn hna
      unfold Conn.onParseFault
      rw [hw]
      split
      · rename_i hwi
        split
        · rename_i hh
          exact absurd ⟨hh, hwi⟩ hn
        · rw [none_of pe (hna hwi)]
      · rfl
    cases he with
    | late _ hp hl =>
      simp only [hp]
      rw [if_pos ((late_iff _ _).mpr hl)]
    | @head _ _ pe rest h2 _ hp hn hna =>
      simp only [hp, Option.isSome_some, Bool.true_or, if_true]
      refine tail _ _ hn ?_
      rintro hwi p ⟨⟩
      cases hcl : d.conn.client
      · right
        cases h2
        · cases ha : Answerable pe
          · rfl
          · exact absurd ⟨hcl, hwi, rfl, ha⟩ hna
        · exact absurd ⟨rfl, hwi⟩ hn
      · exact .inl rfl
    | preface _ hp hm hwi =>
      simp only [hp]
      rw [if_pos (by simpa [Awaits, or_assoc] using hm)]
      unfold Conn.onParseFault
      rw [hw, if_pos hwi, if_pos rfl]
    | cut _ hp hen hr hn =>
      simp only [hp]
      rw [if_pos (by simpa [Awaits] using hr), tail _ _ hn (fun _ p hq => by cases hq)]
      simp [Conn.parseErr, hen]
    | broken _ hp hen hr hn =>
      simp only [hp]
      rw [if_pos (by simpa [Awaits] using hr), tail _ _ hn (fun _ p hq => by cases hq)]
      simp [Conn.parseErr, hen]
    | noise hw' _ _ => exact absurd h.2.2.1 (by rw [hw'.2.2.1]; decide)
    | watched hw' _ _ _ => exact absurd h.2.2.1 (by rw [hw'.2.2.1]; decide)
    | left hw' _ _ _ => exact absurd h.2.2.1 (by rw [hw'.2.2.1]; decide)
    | flush hf _ => cases hf
    | zero hf _ => cases hf
    | panic hf _ => cases hf

theorem idleFault_ends {d : Disp} (hd : d.done = false) (hcl : d.closing = false) (hr : d.conn.canReadHead = false) (hb : d.bodyTx = none) (i : ReadIn) (w : Why)
    (e : Err) : d.conn.idleFault i.bufEmpty i.io w = some e ↔ Ends d (.read i) w e := by
  constructor
  · intro hf
    unfold Conn.idleFault at hf
    split at hf
    · cases hf
    · rename_i hnc
      have hw : Watches d := ⟨hd, hcl, hr, hb, hnc⟩
      split at hf
      · rename_i hbt
        split at hf
        · rename_i hbe
          cases hf
          exact .noise hw hbt (.inl (by simpa using hbe))
        · rename_i hbe
          have hbe' : i.bufEmpty = true := by simpa using hbe
          cases hio : i.io <;> simp only [hio] at hf
          · cases hf
          · cases hf
            exact .watched hw hbe' hio (.inl hbt)
          · split at hf
            · rename_i ha
              cases hf
              exact .left hw hbe' hio (.inl ⟨hbt, by simpa [Awaits] using ha⟩)
            · cases hf
          · cases hf
            exact .noise hw hbt (.inr hio)
      · rename_i hbt
        split at hf
        · cases hf
        · rename_i hx
          have hx' : d.conn.halfClose = false ∧ i.bufEmpty = true := by simpa using hx
          cases hio : i.io <;> simp only [hio] at hf
          · cases hf
          · cases hf
            exact .watched hw hx'.2 hio (.inr hx'.1)
          · cases hf
            exact .left hw hx'.2 hio (.inr ⟨hbt, hx'.1⟩)
          · cases hf
  · intro he
    unfold Conn.idleFault
    have no : ∀ {j : ReadIn}, ¬ AsksHead d j := fun h => by have q := h.2.2.1; rw [hr] at q; cases q
    cases he with
    | late h _ _ => exact absurd h no
    | head h _ _ _ => exact absurd h no
    | preface h _ _ _ => exact absurd h no
    | cut h _ _ _ _ => exact absurd h no
    | broken h _ _ _ _ => exact absurd h no
    | noise hw hbt hx =>
      rw [if_neg hw.2.2.2.2, if_pos (show d.conn.reading = .init ∧ d.conn.writing = .init from hbt)]
      rcases hx with hx | hx
      · simp [hx]
      · simp [hx]
    | watched hw hbe hio hx =>
      rw [if_neg hw.2.2.2.2]
      by_cases hbt : Between d.conn
      · rw [if_pos (show d.conn.reading = .init ∧ d.conn.writing = .init from hbt)]
        simp [hbe, hio]
      · rw [if_neg (show ¬ (d.conn.reading = .init ∧ d.conn.writing = .init) from hbt)]
        rcases hx with hx | hx
        · exact absurd hx hbt
        · simp [hbe, hio, hx]
    | left hw hbe hio hx =>
      rw [if_neg hw.2.2.2.2]
      rcases hx with ⟨hbt, ha⟩ | ⟨hbt, hx⟩
      · rw [if_pos (show d.conn.reading = .init ∧ d.conn.writing = .init from hbt)]
        simp [hbe, hio, ha.1, ha.2]
      · rw [if_neg (show ¬ (d.conn.reading = .init ∧ d.conn.writing = .init) from hbt)]
        simp [hbe, hio, hx]
    | flush hf _ => cases hf
    | zero hf _ => cases hf
    | panic hf _ => cases hf

theorem asks_iff (d : Disp) (i : ReadIn) : AsksHead d i ↔ d.done = false ∧ d.closing = false ∧ d.conn.canReadHead = true ∧ d.asksHead i = true := by
  unfold AsksHead Disp.asksHead
  cases d.conn.client <;> cases hf : d.inFlight <;> simp

/-- The errors of a turn of `poll_read`. -/
theorem read_ends (d : Disp) (i : ReadIn) (w : Why) (kept : Option Err) (e : Err) :
    Ends d (.read i) w e ↔ d.fault (.read i) w kept = some e ∨ d.handed (.read i) w = some e := by
  unfold Disp.fault Disp.handed Disp.readsHead
  have nothing : (∀ j, ¬ AsksHead d j) → ¬ Watches d → ¬ Ends d (.read i) w e := by
    intro h1 h2 he
    cases he with
    | late h _ _ => exact h1 _ h
    | head h _ _ _ => exact h1 _ h
    | preface h _ _ _ => exact h1 _ h
    | cut h _ _ _ _ => exact h1 _ h
    | broken h _ _ _ _ => exact h1 _ h
    | noise hw _ _ => exact h2 hw
    | watched hw _ _ _ => exact h2 hw
    | left hw _ _ _ => exact h2 hw
    | flush hf _ => cases hf
    | zero hf _ => cases hf
    | panic hf _ => cases hf
  cases hd : d.done
  · cases hcl : d.closing
    · cases hr : d.conn.canReadHead
      · cases hb : d.bodyTx with
        | some k =>
          have hn := nothing (fun j h => by have q := h.2.2.1; rw [hr] at q; cases q) (fun h => by have q := h.2.2.2.1; rw [hb] at q; cases q)
          simp [Disp.readFault, hcl, hr, hb, hn]
        | none =>
          rw [← idleFault_ends hd hcl hr hb]
          simp [Disp.readFault, hcl, hr, hb]
      · cases ha : d.asksHead i
        · have hn : ¬ Ends d (.read i) w e := by
            have hna : ¬ AsksHead d i := fun h => by rw [asks_iff, ha] at h; cases h.2.2.2
            intro he
            cases he with
            | late h _ _ => exact hna h
            | head h _ _ _ => exact hna h
            | preface h _ _ _ => exact hna h
            | cut h _ _ _ _ => exact hna h
            | broken h _ _ _ _ => exact hna h
            | noise hw _ _ => have q := hw.2.2.1; rw [hr] at q; cases q
            | watched hw _ _ _ => have q := hw.2.2.1; rw [hr] at q; cases q
            | left hw _ _ _ => have q := hw.2.2.1; rw [hr] at q; cases q
            | flush hf _ => cases hf
            | zero hf _ => cases hf
            | panic hf _ => cases hf
          simp [Disp.readFault, hcl, hr, ha, hn]
        · rw [← headFault_ends ((asks_iff d i).mpr ⟨hd, hcl, hr, ha⟩)]
          cases hc : d.conn.client <;> simp [Disp.readFault, hcl, hr, ha, hc]
    · have hn := nothing (fun j h => by have q := h.2.1; rw [hcl] at q; cases q) (fun h => by have q := h.2.1; rw [hcl] at q; cases q)
      simp [Disp.readFault, hcl, hn]
  · have hn := nothing (fun j h => by have q := h.1; rw [hd] at q; cases q) (fun h => by have q := h.1; rw [hd] at q; cases q)
    simp [hn]

theorem short_iff (c : Conn) : c.endBody.1.isSome = true ↔ Short c := by
  unfold Conn.endBody Writing.endBody Short
  cases hw : c.writing with
  | body enc => cases hf : enc.finish <;> simp [hf]
  | _ => simp

/-- The errors of a flush. -/
theorem flush_fault {d : Disp} {a : Act} {f : FlushIn} {i : NotifyIn} (h : Flushes d a f i) (w : Why) (e : Err) :
    Ends d a w e ↔ (d.conn.pollFlush f i).1.fault .bodyWrite w = some e := by
  have only : ∀ {f' i'}, Flushes d a f' i' → f' = f ∧ i' = i := by
    intro f' i' h'
    cases h <;> cases h' <;> exact ⟨rfl, rfl⟩
  constructor
  · intro he
    cases he with
    | flush hf hr => obtain ⟨rfl, rfl⟩ := only hf; rw [hr]; rfl
    | zero hf hr => obtain ⟨rfl, rfl⟩ := only hf; rw [hr]; rfl
    | panic hf hr => obtain ⟨rfl, rfl⟩ := only hf; rw [hr]; rfl
    | service ha _ _ => cases h with | write _ _ hn _ => exact absurd ha hn
    | body hw _ _ => cases h with | write _ _ _ hb => have q := hw.2.2.2.1; rw [hb] at q; cases q
    | short hw _ _ => cases h with | write _ _ _ hb => have q := hw.2.2.2.1; rw [hb] at q; cases q
    | _ => cases h
  · intro he
    cases hr : (d.conn.pollFlush f i).1 <;> rw [hr] at he <;> cases he
    · exact .flush h hr
    · exact .zero h hr
    · exact .panic h hr

theorem asksUser_iff (d : Disp) (hd : d.done = false) (hc : d.closing = false) :
    AsksUser d ↔ (!d.bodyRx && d.conn.canWriteHead && d.shouldPoll) = true := by
  unfold AsksUser
  simp [hd, hc, and_assoc]

/-- The errors of a turn of `poll_write`. -/
theorem write_ends (d : Disp) (i : WriteIn) (w : Why) (kept : Option Err) (e : Err) : Ends d (.write i) w e ↔ d.fault (.write i) w kept = some e := by
  unfold Disp.fault
  have nothing : (¬ AsksUser d) → (¬ Writes d) → (∀ f j, ¬ Flushes d (.write i) f j) → ¬ Ends d (.write i) w e := by
    intro h1 h2 h3 he
    cases he with
    | service h _ _ => exact h1 h
    | body h _ _ => exact h2 h
    | short h _ _ => exact h2 h
    | flush hf _ => exact h3 _ _ hf
    | zero hf _ => exact h3 _ _ hf
    | panic hf _ => exact h3 _ _ hf
  cases hd : d.done
  · simp only [Bool.false_eq_true, if_false]
    unfold Disp.writeFault
    cases hcl : d.closing
    · simp only [Bool.false_eq_true, if_false]
      by_cases ha : AsksUser d
      · rw [if_pos ((asksUser_iff d hd hcl).mp ha)]
        have hnw : ¬ Writes d := fun h => h.2.2.1 ha
        have hnf : ∀ f j, ¬ Flushes d (.write i) f j := by
          rintro f j h
          cases h with
          | write _ _ hn _ => exact hn ha
        constructor
        · intro he
          cases he with
          | service _ hc hm => simp [hm, hc]
          | body h _ _ => exact absurd h hnw
          | short h _ _ => exact absurd h hnw
          | flush hf _ => exact absurd hf (hnf _ _)
          | zero hf _ => exact absurd hf (hnf _ _)
          | panic hf _ => exact absurd hf (hnf _ _)
        · intro hf
          cases hm : i.msg <;> simp only [hm] at hf
          all_goals first
            | (cases hf; done)
            | skip
          split at hf
          · cases hf
          · rename_i hc
            cases hf
            exact .service ha (by simpa using hc) hm
      · rw [if_neg (fun h => ha ((asksUser_iff d hd hcl).mpr h))]
        cases hb : d.conn.canBufferBody
        · simp only [Bool.not_false, if_true]
          exact flush_fault (.write hd hcl ha hb) w e
        · simp only [Bool.not_true, Bool.false_eq_true, if_false]
          have hnf : ∀ f j, ¬ Flushes d (.write i) f j := by
            rintro f j h
            cases h with
            | write _ _ _ hn => rw [hb] at hn; cases hn
          cases hw : d.conn.canWriteBody
          · have hn := nothing ha (fun h => by have q := h.2.2.2.2; rw [hw] at q; cases q) hnf
            cases d.bodyRx <;> simp [hn]
          · have hws : Writes d := ⟨hd, hcl, ha, hb, hw⟩
            constructor
            · intro he
              cases he with
              | service h _ _ => exact absurd h ha
              | body h hx hfr => simp [hx, hfr]
              | short h hx hs =>
                have hs' := (short_iff _).mpr hs
                cases hrx : d.bodyRx
                · simp [hs']
                · rcases hx with hx | hx | hx
                  · rw [hrx] at hx; cases hx
                  · simp [hx, hs']
                  · simp [hx, hs']
              | flush hf _ => exact absurd hf (hnf _ _)
              | zero hf _ => exact absurd hf (hnf _ _)
              | panic hf _ => exact absurd hf (hnf _ _)
            · intro hf
              cases hrx : d.bodyRx <;> simp only [hrx, Bool.false_eq_true, if_false, if_true] at hf
              · split at hf
                · rename_i hs
                  cases hf
                  exact .short hws (.inl hrx) ((short_iff _).mp hs)
                · cases hf
              · split at hf
                · rename_i hfr
                  split at hf
                  · rename_i hs
                    cases hf
                    exact .short hws (.inr (.inl hfr)) ((short_iff _).mp hs)
                  · cases hf
                · rename_i bs hfr
                  split at hf
                  · rename_i hs
                    cases hf
                    obtain ⟨rfl, hs⟩ := hs
                    exact .short hws (.inr (.inr hfr)) ((short_iff _).mp hs)
                  · cases hf
                · rename_i hfr
                  cases hf
                  exact .body hws hrx hfr
                · cases hf
    · have hn := nothing (fun h => by have q := h.2.1; rw [hcl] at q; cases q) (fun h => by have q := h.2.1; rw [hcl] at q; cases q)
        (fun f j h => by cases h with | write _ h _ _ => rw [hcl] at h; cases h)
      simp [hn]
  · have hn := nothing (fun h => by have q := h.1; rw [hd] at q; cases q) (fun h => by have q := h.1; rw [hd] at q; cases q)
      (fun f j h => by cases h with | write h _ _ _ => rw [hd] at h; cases h)
    simp [hn]

/-- The errors of the end of a poll, but for the one remembered. -/
theorem finish_ends (d : Disp) (s : Bool) (f : FlushIn) (w : Why) (e : Err) : Ends d (.finish s f) w e ↔ d.fault (.finish s f) w none = some e := by
  unfold Disp.fault Disp.finishFault
  constructor
  · intro he
    cases he with
    | shut hd hi hu hr => simp [hd, hi, hu, hr, FlushRes.fault]
    | shutZero hd hi hu hr => simp [hd, hi, hu, hr, FlushRes.fault]
    | shutPanic hd hi hu hr => simp [hd, hi, hu, hr, FlushRes.fault]
    | flush hf _ => cases hf
    | zero hf _ => cases hf
    | panic hf _ => cases hf
  · intro hf
    cases hd : d.done
    · simp only [hd, Bool.false_eq_true, if_false] at hf
      cases hi : d.isDone
      · simp [hi] at hf
      · cases hu : d.conn.upgrade
        · cases s
          · simp [hi, hu] at hf
          · simp only [hi, hu, Bool.not_true, Bool.false_eq_true, if_false, if_true] at hf
            cases hr : (d.conn.pollShutdown f).1 <;> simp only [hr, reduceCtorEq, if_true, if_false] at hf
            · cases hf
              exact .shut hd hi hu hr
            · cases hf
              exact .shutZero hd hi hu hr
            · cases hf
              exact .shutPanic hd hi hu hr
        · simp [hi, hu] at hf
    · simp [hd] at hf

theorem other_ends {d : Disp} {a : Act} {w : Why} {e : Err} (h1 : ∀ i, a ≠ .read i) (h2 : ∀ i, a ≠ .write i) (h3 : ∀ f i, a ≠ .flush f i) (h4 : ∀ s f, a ≠ .finish s f) :
    ¬ Ends d a w e := by
  intro he
  cases he with
  | flush hf _ => cases hf with | flush _ => exact h3 _ _ rfl | write _ _ _ _ => exact h2 _ rfl
  | zero hf _ => cases hf with | flush _ => exact h3 _ _ rfl | write _ _ _ _ => exact h2 _ rfl
  | panic hf _ => cases hf with | flush _ => exact h3 _ _ rfl | write _ _ _ _ => exact h2 _ rfl
  | shut _ _ _ _ => exact h4 _ _ rfl
  | shutZero _ _ _ _ => exact h4 _ _ rfl
  | shutPanic _ _ _ _ => exact h4 _ _ rfl
  | service _ _ _ => exact h2 _ rfl
  | body _ _ _ => exact h2 _ rfl
  | short _ _ _ => exact h2 _ rfl
  | _ => exact h1 _ rfl

/-- What ends the connection is exactly what makes `poll_inner` fail or is given to a client's callback; for the rest the error remembered is
returned. -/
theorem ends_iff (d : Disp) (a : Act) (w : Why) (e : Err) : Ends d a w e ↔ d.fault a w none = some e ∨ d.handed a w = some e := by
  have hh : (∀ i, a ≠ .read i) → d.handed a w = none := by
    intro h
    unfold Disp.handed
    cases a with
    | read i => exact absurd rfl (h i)
    | _ => cases d.done <;> rfl
  cases a with
  | read i => exact read_ends d i w none e
  | write i => rw [write_ends d i w none e, hh (by simp)]; simp
  | flush f i =>
    rw [hh (by simp)]
    cases hd : d.done
    · rw [flush_fault (.flush hd) w e]
      simp [Disp.fault, hd]
    · have : ¬ Ends d (.flush f i) w e := by
        intro he
        cases he with
        | flush hf _ => cases hf with | flush h => rw [hd] at h; cases h
        | zero hf _ => cases hf with | flush h => rw [hd] at h; cases h
        | panic hf _ => cases hf with | flush h => rw [hd] at h; cases h
      simp [Disp.fault, hd, this]
  | finish s f => rw [finish_ends d s f w e, hh (by simp)]; simp
  | readAgain => rw [hh (by simp)]; simp [Disp.fault, other_ends]
  | disable b => rw [hh (by simp)]; simp [Disp.fault, other_ends]
  | want k => rw [hh (by simp)]; simp [Disp.fault, other_ends]
  | dropReader k => rw [hh (by simp)]; simp [Disp.fault, other_ends]
  | drop => rw [hh (by simp)]; simp [Disp.fault, other_ends]

/-- An error of `poll_inner` is one of those, or the one remembered. -/
theorem fault_from {d : Disp} {a : Act} {w : Why} {kept : Option Err} {e : Err} (h : d.fault a w kept = some e) :
    d.fault a w none = some e ∨ (kept = some e ∧ ∃ s f, a = .finish s f) := by
  cases a with
  | finish s f =>
    unfold Disp.fault at h ⊢
    unfold Disp.finishFault at h ⊢
    cases hd : d.done
    · simp only [hd, Bool.false_eq_true, if_false] at h ⊢
      split at h
      · cases h
      · rename_i hi
        rw [if_neg hi]
        split at h
        · exact .inr ⟨h, _, _, rfl⟩
        · rename_i hu
          rw [if_neg hu]
          split at h
          · rename_i hs
            rw [if_pos hs]
            split at h
            · cases h
            · rename_i hp
              rw [if_neg hp]
              split at h
              · exact .inr ⟨h, _, _, rfl⟩
              · rename_i ho
                rw [if_neg ho]
                exact .inl h
          · exact .inr ⟨h, _, _, rfl⟩
    · simp [hd] at h
  | _ => exact .inl h

theorem fault_to {d : Disp} {a : Act} {w : Why} {e : Err} (h : d.fault a w none = some e) (kept : Option Err) : d.fault a w kept = some e := by
  cases a with
  | finish s f =>
    unfold Disp.fault at h ⊢
    unfold Disp.finishFault at h ⊢
    cases hd : d.done
    · simp only [hd, Bool.false_eq_true, if_false] at h ⊢
      split at h
      · cases h
      · rename_i hi
        rw [if_neg hi]
        split at h
        · cases h
        · rename_i hu
          rw [if_neg hu]
          split at h
          · rename_i hs
            rw [if_pos hs]
            split at h
            · cases h
            · rename_i hp
              rw [if_neg hp]
              split at h
              · cases h
              · rename_i ho
                rw [if_neg ho]
                exact h
          · cases h
    · simp [hd] at h
  | _ => exact h

theorem keepAlive_looks (c : Conn) (i : NotifyIn) (w : Why) (old : Option Err) :
    (Looks c → i = .error → c.keepAliveKept i w old = some ⟨.io, w.cause⟩) ∧ (¬ (Looks c ∧ i = .error) → c.keepAliveKept i w old = old) := by
  unfold Conn.keepAliveKept Conn.notifyKept Conn.stateKeepAlive Looks
  cases hr : c.reading <;> cases hw : c.writing <;> cases hk : c.ka <;> cases i <;> simp [hr, hw, Conn.goIdle, Conn.closeAll]

/-- What is remembered after a flush. -/
theorem flush_kept (d : Disp) (f : FlushIn) (i : NotifyIn) (w : Why) (old : Option Err) :
    ((d.conn.pollFlush f i).1 = .ok → Looks d.conn → i = .error → d.flushKept f i w old = some ⟨.io, w.cause⟩) ∧
    (¬ ((d.conn.pollFlush f i).1 = .ok ∧ Looks d.conn ∧ i = .error) → d.flushKept f i w old = old) := by
  have hr : (d.conn.pollFlush f i).1 = ((d.conn.scripted f).pollFlush bytesBuf f.readBuf).1 := by
    unfold Conn.pollFlush
    simp only
    split <;> simp_all
  have hk := keepAlive_looks { d.conn with out := ((d.conn.scripted f).pollFlush bytesBuf f.readBuf).2 } i w old
  have hl : Looks { d.conn with out := ((d.conn.scripted f).pollFlush bytesBuf f.readBuf).2 } ↔ Looks d.conn := Iff.rfl
  rw [hl] at hk
  rw [hr]
  unfold Disp.flushKept
  constructor
  · intro h1 h2 h3
    rw [if_pos h1]
    exact hk.1 h2 h3
  · intro h
    split
    · rename_i h1
      exact hk.2 (fun hx => h ⟨h1, hx⟩)
    · rfl

/-- What is remembered after a piece of a body. -/
theorem decode_kept (P : TrailerParser) (c : Conn) (dec : Decoder) (i : ReadIn) (w : Why) (old : Option Err) :
    (Finishes P dec i.rd → c.writing = .keepAlive → c.ka = .busy → i.notify = .error → c.decodeKept P dec i w old = some ⟨.io, w.cause⟩) ∧
    (¬ (Finishes P dec i.rd ∧ c.writing = .keepAlive ∧ c.ka = .busy ∧ i.notify = .error) → c.decodeKept P dec i w old = old) := by
  have hc := (keepAlive_looks { c with reading := .closed } i.notify w old).2 (by rintro ⟨h | h, _⟩ <;> cases h.1)
  have hl : Looks c.readDone ↔ c.writing = .keepAlive ∧ c.ka = .busy := by
    constructor
    · rintro (h | h)
      · cases h.1
      · exact h.2
    · exact fun h => .inr ⟨rfl, h⟩
  have hk := keepAlive_looks c.readDone i.notify w old
  rw [hl] at hk
  unfold Conn.decodeKept Finishes
  cases (dec.decode P i.rd).1 with
  | pending => simp
  | ready r =>
    cases r with
    | error e => simp [hc]
    | ok fr =>
      cases fr with
      | trailers fs =>
        refine ⟨fun _ h1 h2 h3 => hk.1 ⟨h1, h2⟩ h3, fun h => hk.2 ?_⟩
        rintro ⟨⟨h1, h2⟩, h3⟩
        exact h ⟨.inl ⟨fs, rfl⟩, h1, h2, h3⟩
      | data bs =>
        simp only
        cases he : (dec.decode P i.rd).2.1.isEof
        · simp only [Bool.false_eq_true, if_false]
          refine ⟨?_, fun _ => ?_⟩
          · rintro (⟨fs, h⟩ | ⟨bs, _, h⟩)
            · cases h
            · cases h
          · split
            · exact hc
            · rfl
        · simp only [if_true]
          refine ⟨fun _ h1 h2 h3 => hk.1 ⟨h1, h2⟩ h3, fun h => hk.2 ?_⟩
          rintro ⟨⟨h1, h2⟩, h3⟩
          exact h ⟨.inr ⟨bs, rfl, trivial⟩, h1, h2, h3⟩

theorem writing_sendContinue (c : Conn) : c.sendContinue.writing = c.writing := by
  unfold Conn.sendContinue
  split <;> rfl

theorem ka_sendContinue (c : Conn) : c.sendContinue.ka = c.ka := by
  unfold Conn.sendContinue
  split <;> rfl

theorem reading_init {d : Disp} {i : ReadIn} (h : AsksHead d i) : d.conn.reading = .init := by
  have := h.2.2.1
  unfold Conn.canReadHead at this
  simp only [Bool.and_eq_true, beq_iff_eq] at this
  exact this.1

/-- What is remembered when a head was asked for. -/
theorem head_kept (env : EncodeEnv) (P : TrailerParser) {d : Disp} {i : ReadIn} (h : AsksHead d i) (w : Why) (old : Option Err) :
    (∀ e, Remembers env P d (.read i) w e → d.conn.headKept i w d.headId old = some e) ∧
    ((∀ e, ¬ Remembers env P d (.read i) w e) → d.conn.headKept i w d.headId old = old) := by
  have nb : ∀ dec, ¬ ReadsBody d i dec := by
    intro dec hb
    have hx := reading_init h
    rcases hb.2.2.1 with h | h <;> rw [hx] at h <;> cases h
  unfold Conn.headKept
  cases hp : i.parse with
  | pending =>
    refine ⟨fun e he => ?_, fun _ => rfl⟩
    cases he with
    | head _ h' _ => rw [hp] at h'; cases h'
    | noBody _ _ h' => rw [hp] at h'; cases h'
    | ended hb _ _ _ _ => exact absurd hb (nb _)
    | flushed hf _ _ => cases hf
  | error pe rest h2 =>
    simp only
    have hw : (d.conn.startTimer i.t0).closeRead.writing = d.conn.writing := writing_startTimer _ _
    have hc : (d.conn.startTimer i.t0).closeRead.client = d.conn.client := client_startTimer _ _
    have ha : ∀ p, Answers d.conn p h2 → pe = some p →
        (d.conn.startTimer i.t0).closeRead.onParseKept pe h2 w old = some ⟨.parse p, []⟩ := by
      intro p hp' he
      subst he
      unfold Conn.onParseKept Conn.onError
      rw [hw, hc, if_pos hp'.2.1, hp'.2.2.1, hp'.1]
      have := answers_iff p
      rw [hp'.2.2.2] at this
      obtain ⟨x, hx⟩ := Option.isSome_iff_exists.mp this
      simp [hx, Conn.parseErr]
    have hn : (∀ p, pe = some p → ¬ Answers d.conn p h2) → (d.conn.startTimer i.t0).closeRead.onParseKept pe h2 w old = old := by
      intro hna
      unfold Conn.onParseKept
      rw [hw]
      split
      · rename_i hwi
        cases h2
        · simp only [Bool.false_eq_true, if_false]
          unfold Conn.onError
          rw [hc]
          cases hcl : d.conn.client
          · cases pe with
            | none => rfl
            | some p =>
              simp only [Bool.false_eq_true, if_false]
              have hx : Answerable p = false := by
                cases hx : Answerable p
                · rfl
                · exact absurd ⟨hcl, hwi, rfl, hx⟩ (hna p rfl)
              rw [← answers_iff] at hx
              cases hs : serverOnError p with
              | none => simp [hs]
              | some x => rw [hs] at hx; cases hx
          · rfl
        · rfl
      · rfl
    constructor
    · intro e he
      cases he with
      | head _ h' hans =>
        rw [hp] at h'
        cases h'
        simp only [Option.isSome_some, Bool.true_or, if_true]
        exact ha _ hans rfl
      | noBody _ _ h' => rw [hp] at h'; cases h'
      | ended hb _ _ _ _ => exact absurd hb (nb _)
      | flushed hf _ _ => cases hf
    · intro hnr
      split
      · refine hn (fun p hpe hans => hnr _ (.head h (by rw [hp, hpe]) hans))
      · rfl
  | msg m =>
    simp only
    have hl : Looks ((d.conn.startTimer i.t0).headState m d.headId).readDone ↔ d.conn.writing = .keepAlive ∧ m.keepAlive = true ∧ d.conn.ka ≠ .disabled := by
      unfold Looks Conn.readDone Conn.headState
      simp only [reduceCtorEq, false_and, false_or, true_and, writing_startTimer, ka_startTimer]
      cases m.keepAlive
      · simp
      · by_cases hk : d.conn.ka = .disabled <;> simp [hk]
    have hk := keepAlive_looks ((d.conn.startTimer i.t0).headState m d.headId).readDone i.notify w old
    rw [hl] at hk
    constructor
    · intro e he
      cases he with
      | head _ h' hans => rw [hp] at h'; cases h'
      | noBody _ hc h' hz hm hka hwr hno =>
        rw [hp] at h'
        cases h'
        rw [if_pos hz, if_pos hc]
        exact hk.1 ⟨hwr, hm, hka⟩ hno
      | ended hb _ _ _ _ => exact absurd hb (nb _)
      | flushed hf _ _ => cases hf
    · intro hnr
      split
      · rename_i hz
        split
        · rename_i hc
          exact hk.2 (fun hx => hnr _ (.noBody h hc hp hz hx.1.2.1 hx.1.2.2 hx.1.1 hx.2))
        · rfl
      · rfl

/-- What is remembered when a body was read. -/
theorem body_kept (env : EncodeEnv) (P : TrailerParser) {d : Disp} {i : ReadIn} {dec : Decoder} (h : ReadsBody d i dec) (w : Why) (old new : Option Err) (c : Conn)
    (hw : c.writing = d.conn.writing) (hka : c.ka = d.conn.ka) (hn : new = c.decodeKept P dec i w old) :
    (∀ e, Remembers env P d (.read i) w e → new = some e) ∧ ((∀ e, ¬ Remembers env P d (.read i) w e) → new = old) := by
  have hk := decode_kept P c dec i w old
  rw [hw, hka, ← hn] at hk
  have nh : ¬ AsksHead d i := by
    intro hh
    have := reading_init hh
    rcases h.2.2.1 with hx | hx <;> rw [this] at hx <;> cases hx
  constructor
  · intro e he
    cases he with
    | head ha _ _ => exact absurd ha nh
    | noBody ha => exact absurd ha nh
    | flushed hf _ _ => cases hf
    | @ended _ _ dec' hb hf h1 h2 h3 =>
      have hd : dec' = dec := by
        rcases h.2.2.1 with hx | hx <;> rcases hb.2.2.1 with hy | hy <;> rw [hx] at hy <;> cases hy <;> rfl
      subst hd
      exact hk.1 hf h1 h2 h3
  · intro hnr
    exact hk.2 (fun hx => hnr _ (.ended h hx.1 hx.2.1 hx.2.2.1 hx.2.2.2))

theorem flushes_live {d : Disp} {a : Act} {f : FlushIn} {n : NotifyIn} (h : Flushes d a f n) : d.done = false := by
  cases h <;> assumption

theorem flushes_write {d : Disp} {i : WriteIn} {f : FlushIn} {n : NotifyIn} (h : Flushes d (.write i) f n) :
    f = i.flush ∧ n = i.notify ∧ d.closing = false ∧ ¬ AsksUser d ∧ d.conn.canBufferBody = false := by
  cases h
  exact ⟨rfl, rfl, by assumption, by assumption, by assumption⟩

theorem flushes_act {d : Disp} {a : Act} {f : FlushIn} {n : NotifyIn} (h : Flushes d a f n) (h2 : ∀ i, a ≠ .write i) (h3 : ∀ f i, a ≠ .flush f i) : False := by
  cases h with
  | flush _ => exact h3 _ _ rfl
  | write _ _ _ _ => exact h2 _ rfl

theorem other_remembers {env : EncodeEnv} {P : TrailerParser} {d : Disp} {a : Act} {w : Why} {e : Err} (h1 : ∀ i, a ≠ .read i) (h2 : ∀ i, a ≠ .write i)
    (h3 : ∀ f i, a ≠ .flush f i) : ¬ Remembers env P d a w e := by
  intro he
  cases he with
  | flushed hf _ => exact flushes_act hf h2 h3
  | header => exact h2 _ rfl
  | status => exact h2 _ rfl
  | panic => exact h2 _ rfl
  | panicReq => exact h2 _ rfl
  | _ => exact h1 _ rfl

/-- What is remembered after an act that does not end the poll. -/
theorem kept_set (env : EncodeEnv) (P : TrailerParser) (d : Disp) (a : Act) (w : Why) (old : Option Err) (hf : ∀ s f, a ≠ .finish s f) :
    (∀ e, Remembers env P d a w e → d.kept env P a w old = some e) ∧ ((∀ e, ¬ Remembers env P d a w e) → d.kept env P a w old = old) := by
  cases hd : d.done
  rotate_left
  · refine ⟨fun e he => ?_, fun _ => by simp [Disp.kept, hd]⟩
    exfalso
    have : d.done = false := by
      cases he with
      | head h => exact h.1
      | header h => exact h.1
      | status h => exact h.1
      | panic h => exact h.1
      | panicReq h => exact h.1
      | flushed h => exact flushes_live h
      | noBody h => exact h.1
      | ended h => exact h.1
    rw [hd] at this
    cases this
  have none_ : ∀ (new : Option Err), new = old → (∀ e, ¬ Remembers env P d a w e) →
      (∀ e, Remembers env P d a w e → new = some e) ∧ ((∀ e, ¬ Remembers env P d a w e) → new = old) :=
    fun new h1 h2 => ⟨fun e he => absurd he (h2 e), fun _ => h1⟩
  cases a with
  | finish s f => exact absurd rfl (hf s f)
  | readAgain => exact none_ _ (by simp [Disp.kept]) (fun e => other_remembers (by simp) (by simp) (by simp))
  | disable b => exact none_ _ (by simp [Disp.kept]) (fun e => other_remembers (by simp) (by simp) (by simp))
  | want k => exact none_ _ (by simp [Disp.kept]) (fun e => other_remembers (by simp) (by simp) (by simp))
  | dropReader k => exact none_ _ (by simp [Disp.kept]) (fun e => other_remembers (by simp) (by simp) (by simp))
  | drop => exact none_ _ (by simp [Disp.kept]) (fun e => other_remembers (by simp) (by simp) (by simp))
  | flush f i =>
    have hk := flush_kept d f i w old
    simp only [Disp.kept, hd, Bool.false_eq_true, if_false]
    constructor
    · intro e he
      cases he with
      | flushed hfl hok hlo =>
        cases hfl
        exact hk.1 hok hlo rfl
    · intro hnr
      refine hk.2 (fun hx => ?_)
      obtain ⟨h1, h2, rfl⟩ := hx
      exact hnr _ (.flushed (.flush hd) h1 h2)
  | read i =>
    simp only [Disp.kept, hd, Bool.false_eq_true, if_false]
    have stop : ¬ AsksHead d i → (∀ dec, ¬ ReadsBody d i dec) → ∀ e, ¬ Remembers env P d (.read i) w e := by
      intro h1 h2 e he
      cases he with
      | head h => exact h1 h
      | noBody h => exact h1 h
      | ended h => exact h2 _ h
      | flushed h => cases h
    unfold Disp.readKept
    cases hc : d.closing
    rotate_left
    · refine none_ _ (by simp) (stop (fun h => ?_) (fun dec h => ?_))
      · have := h.2.1; rw [hc] at this; cases this
      · have := h.2.1; rw [hc] at this; cases this
    simp only [Bool.false_eq_true, if_false]
    cases hr : d.conn.canReadHead
    · have nh : ¬ AsksHead d i := fun h => by have := h.2.2.1; rw [hr] at this; cases this
      simp only [Bool.false_eq_true, if_false]
      cases hb : d.bodyTx with
      | none =>
        refine none_ _ rfl (stop nh (fun dec h => ?_))
        obtain ⟨k, hk, _⟩ := h.2.2.2
        rw [hb] at hk; cases hk
      | some k =>
        simp only
        cases hcb : d.conn.canReadBody
        · refine none_ _ (by simp) (stop nh (fun dec h => ?_))
          unfold Conn.canReadBody at hcb
          rcases h.2.2.1 with hx | hx <;> rw [hx] at hcb <;> cases hcb
        · simp only [if_true]
          obtain ⟨dec, hdec⟩ : ∃ dec, d.conn.reading = .body dec ∨ d.conn.reading = .cont dec := by
            unfold Conn.canReadBody at hcb
            cases hx : d.conn.reading <;> rw [hx] at hcb <;> simp_all
          have go : ∀ (new : Option Err), ((d.chans[k]?).map Chan.want = some .ready ∧ i.full = false) ∨
              ((d.chans[k]?).map Chan.want ≠ some .ready ∧ (d.chans[k]?).map Chan.want ≠ some .pending) →
              (new = d.conn.bodyKept P i w old ∨ new = d.conn.drainStart.bodyKept P i w old) →
              (∀ e, Remembers env P d (.read i) w e → new = some e) ∧ ((∀ e, ¬ Remembers env P d (.read i) w e) → new = old) := by
            intro new hwant hnew
            have hrb : ReadsBody d i dec := ⟨hd, hc, hdec, k, hb, hwant⟩
            rcases hdec with hx | hx
            · refine body_kept env P hrb w old new d.conn rfl rfl ?_
              rcases hnew with h | h
              · rw [h, Conn.bodyKept, hx]
              · rw [h, Conn.drainStart, hx]; simp only; rw [Conn.bodyKept, hx]
            · rcases hnew with h | h
              · refine body_kept env P hrb w old new d.conn.sendContinue (writing_sendContinue _) (ka_sendContinue _) ?_
                rw [h, Conn.bodyKept, hx]
              · refine body_kept env P hrb w old new { d.conn with reading := .body dec } rfl rfl ?_
                rw [h, Conn.drainStart, hx]; rfl
          cases hwt : (d.chans[k]?).map Chan.want with
          | none => exact go _ (.inr (by simp [hwt])) (.inr rfl)
          | some x =>
            cases x with
            | ready =>
              simp only
              cases hfu : i.full
              · exact go _ (.inl ⟨hwt, hfu⟩) (.inl rfl)
              · refine none_ _ (by simp) (stop nh (fun dec h => ?_))
                obtain ⟨k', hk', h' | h'⟩ := h.2.2.2
                · rw [hfu] at h'; cases h'.2
                · rw [hb] at hk'; cases hk'; exact h'.1 hwt
            | pending =>
              refine none_ _ rfl (stop nh (fun dec h => ?_))
              obtain ⟨k', hk', h' | h'⟩ := h.2.2.2 <;> rw [hb] at hk' <;> cases hk'
              · rw [hwt] at h'; cases h'.1
              · exact h'.2 hwt
            | closed => exact go _ (.inr (by simp [hwt])) (.inr rfl)
    · simp only [if_true]
      cases ha : d.asksHead i
      · refine none_ _ (by simp) (stop (fun h => ?_) (fun dec h => ?_))
        · have := ((asks_iff d i).mp h).2.2.2; rw [ha] at this; cases this
        · unfold Conn.canReadHead at hr
          rcases h.2.2.1 with hx | hx <;> rw [hx] at hr <;> cases hr
      · simp only [if_true]
        exact head_kept env P ((asks_iff d i).mpr ⟨hd, hc, hr, ha⟩) w old
  | write i =>
    simp only [Disp.kept, hd, Bool.false_eq_true, if_false]
    unfold Disp.writeKept
    cases hc : d.closing
    rotate_left
    · refine none_ _ (by simp) (fun e he => ?_)
      have : d.closing = false := by
        cases he with
        | header h => exact h.2.1
        | status h => exact h.2.1
        | panic h => exact h.2.1
        | panicReq h => exact h.2.1
        | flushed h => exact (flushes_write h).2.2.1
      rw [hc] at this; cases this
    simp only [Bool.false_eq_true, if_false]
    have hau := asksUser_iff d hd hc
    by_cases hu : AsksUser d
    · rw [if_pos (hau.mp hu)]
      have nf : ∀ f n, ¬ Flushes d (.write i) f n := fun f n h => by cases h; contradiction
      cases hm : i.msg with
      | resp m =>
        simp only
        cases hcl : d.conn.client
        · simp only [Bool.false_eq_true, if_false]
          constructor
          · intro e he
            cases he with
            | header _ _ h1 h2 => rw [hm] at h1; cases h1; rw [h2]; rfl
            | status _ _ h1 h2 => rw [hm] at h1; cases h1; rw [h2]; rfl
            | panic _ _ h1 h2 => rw [hm] at h1; cases h1; rw [h2]; rfl
            | panicReq _ h1 _ _ => rw [hcl] at h1; cases h1
            | flushed h => exact absurd h (nf _ _)
          · intro hnr
            cases hr : (d.conn.respEnc env m).2 with
            | ok e => rfl
            | userHeader => exact absurd (.header hu hcl hm hr) (hnr _)
            | unsupportedStatus => exact absurd (.status hu hcl hm hr) (hnr _)
            | panic => exact absurd (.panic hu hcl hm hr) (hnr _)
        · refine none_ _ (by simp) (fun e he => ?_)
          cases he with
          | header _ h1 _ _ => rw [hcl] at h1; cases h1
          | status _ h1 _ _ => rw [hcl] at h1; cases h1
          | panic _ h1 _ _ => rw [hcl] at h1; cases h1
          | panicReq _ _ h1 _ => rw [hm] at h1; cases h1
          | flushed h => exact absurd h (nf _ _)
      | req h body =>
        simp only
        cases hcl : d.conn.client
        · refine none_ _ (by simp) (fun e he => ?_)
          cases he with
          | header _ _ h1 _ => rw [hm] at h1; cases h1
          | status _ _ h1 _ => rw [hm] at h1; cases h1
          | panic _ _ h1 _ => rw [hm] at h1; cases h1
          | panicReq _ h1 _ _ => rw [hcl] at h1; cases h1
          | flushed h => exact absurd h (nf _ _)
        · simp only [if_true]
          constructor
          · intro e he
            cases he with
            | header _ _ h1 _ => rw [hm] at h1; cases h1
            | status _ _ h1 _ => rw [hm] at h1; cases h1
            | panic _ _ h1 _ => rw [hm] at h1; cases h1
            | panicReq _ _ h1 h2 => rw [hm] at h1; cases h1; rw [h2]; rfl
            | flushed h => exact absurd h (nf _ _)
          · intro hnr
            have hr : (d.conn.reqEnc h body).2 ≠ .panic := fun hr => hnr _ (.panicReq hu hcl hm hr)
            unfold Conn.reqEnc at hr ⊢
            split at hr
            · rfl
            · exact absurd rfl hr
      | _ =>
        refine none_ _ rfl (fun e he => ?_)
        cases he with
        | header _ _ h1 _ => rw [hm] at h1; cases h1
        | status _ _ h1 _ => rw [hm] at h1; cases h1
        | panic _ _ h1 _ => rw [hm] at h1; cases h1
        | panicReq _ _ h1 _ => rw [hm] at h1; cases h1
        | flushed h => exact absurd h (nf _ _)
    · rw [if_neg (fun h => hu (hau.mpr h))]
      cases hb : d.conn.canBufferBody
      · simp only [Bool.not_false, if_true]
        have hk := flush_kept d i.flush i.notify w old
        constructor
        · intro e he
          cases he with
          | header h => exact absurd h hu
          | status h => exact absurd h hu
          | panic h => exact absurd h hu
          | panicReq h => exact absurd h hu
          | @flushed _ _ f hfl hok hlo =>
            generalize hn : NotifyIn.error = n at hfl hok
            cases hfl
            exact hk.1 hok hlo hn.symm
        · intro hnr
          refine hk.2 (fun hx => ?_)
          obtain ⟨h1, h2, h3⟩ := hx
          rw [h3] at h1
          exact hnr _ (.flushed (h3 ▸ .write hd hc hu hb) h1 h2)
      · refine none_ _ (by simp) (fun e he => ?_)
        cases he with
        | header h => exact absurd h hu
        | status h => exact absurd h hu
        | panic h => exact absurd h hu
        | panicReq h => exact absurd h hu
        | flushed h => have := (flushes_write h).2.2.2.2; rw [hb] at this; cases this

end Hyper
