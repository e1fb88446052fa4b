import Verif.Model.Httparse
import Verif.Model.Encode
import Verif.Model.Headers
import Verif.Model.Message
import Verif.Model.Reason
import Verif.Model.WriteBuf

/-!
# The repository's own tests of bodies and buffers, run on the model

`src/proto/h1/decode.rs` 732-1287, `src/proto/h1/encode.rs` 430-698, `src/proto/h1/io.rs` 724-900,
`src/headers.rs` 190-220, `src/common/buf.rs` 94-150, `src/ext/h1_reason_phrase.rs` 173-222,
`src/body/length.rs` 110-129.  These are tests, not proofs (see `Conform/Heads.lean`).
-/

namespace Hyper.Conform

/-- `io::ErrorKind` of an error (decode.rs 255-296, 360-634). -/
inductive Kind where
  | invalidData | invalidInput | unexpectedEof | other
  deriving DecidableEq, Repr

def kind : DErr → Kind
  | .eofInLine | .incompleteBody => .unexpectedEof
  | .overflow | .extNewline | .extLimit | .trailerBytes | .trailerCount => .invalidData
  | .missingSizeDigit | .invalidSize | .invalidLws | .invalidSizeLf | .invalidBodyCr | .invalidBodyLf
  | .trailerLf | .endLf | .badTrailers => .invalidInput
  | .io | .panic => .other

/-! ## `test_read_chunk_size` -/

/-- Steps until the size line is over; the size or the kind of the error. -/
def readSize : Nat → Chunked → Rd → Except Kind Nat
  | 0, _, _ => .error .other
  | n + 1, c, r =>
    match c.step r with
    | ⟨.ready (.ok s), c, _, r⟩ =>
      if s = .body ∨ s = .endCr then .ok c.len else readSize n { c with state := s } r
    | ⟨.ready (.error e), _, _, _⟩ => .error (kind e)
    | ⟨.pending, _, _, _⟩ => .error .other

def size (s : String) : Except Kind Nat := readSize 100 (Chunked.new none none) ⟨ascii s, [], .eof⟩

deriving instance DecidableEq for Except

example : size "1\r\n" = .ok 1 := by decide +kernel
example : size "01\r\n" = .ok 1 := by decide +kernel
example : size "0\r\n" = .ok 0 := by decide +kernel
example : size "00\r\n" = .ok 0 := by decide +kernel
example : size "A\r\n" = .ok 10 := by decide +kernel
example : size "a\r\n" = .ok 10 := by decide +kernel
example : size "Ff\r\n" = .ok 255 := by decide +kernel
example : size "Ff   \r\n" = .ok 255 := by decide +kernel
example : size "F\rF" = .error .invalidInput := by decide +kernel
example : size "F" = .error .unexpectedEof := by decide +kernel
example : size "\r\n\r\n" = .error .invalidInput := by decide +kernel
example : size "\r\n" = .error .invalidInput := by decide +kernel
example : size "X\r\n" = .error .invalidInput := by decide +kernel
example : size "1X\r\n" = .error .invalidInput := by decide +kernel
example : size "-\r\n" = .error .invalidInput := by decide +kernel
example : size "-1\r\n" = .error .invalidInput := by decide +kernel
example : size "1;extension\r\n" = .ok 1 := by decide +kernel
example : size "a;ext name=value\r\n" = .ok 10 := by decide +kernel
example : size "1;extension;extension2\r\n" = .ok 1 := by decide +kernel
example : size "1;;;  ;\r\n" = .ok 1 := by decide +kernel
example : size "2; extension...\r\n" = .ok 2 := by decide +kernel
example : size "3   ; extension=123\r\n" = .ok 3 := by decide +kernel
example : size "3   ;\r\n" = .ok 3 := by decide +kernel
example : size "3   ;   \r\n" = .ok 3 := by decide +kernel
example : size "1 invalid extension\r\n" = .error .invalidInput := by decide +kernel
example : size "1 A\r\n" = .error .invalidInput := by decide +kernel
example : size "1;no CRLF" = .error .unexpectedEof := by decide +kernel
example : size "1;reject\nnewlines\r\n" = .error .invalidData := by decide +kernel
example : size "f0000000000000003\r\n" = .error .invalidData := by decide +kernel

/-! ## Reads of bodies -/

/-- One answer of `decode_fut`. -/
inductive Got where
  | data (bs : Bytes) | trailers (fs : Fields) | fails (k : Kind) | waits
  deriving DecidableEq, Repr

/-- The answers of `n` calls of `Decoder::decode`. -/
def decodes : Nat → Decoder → Rd → List Got
  | 0, _, _ => []
  | n + 1, d, r =>
    match d.decode parseBlock r with
    | (.pending, d, r) => .waits :: decodes n d r
    | (.ready (.error e), d, r) => .fails (kind e) :: decodes n d r
    | (.ready (.ok (.data bs)), d, r) => .data bs :: decodes n d r
    | (.ready (.ok (.trailers fs)), d, r) => .trailers fs :: decodes n d r

def fresh (maxHeaders maxSize : Option Nat := none) : Decoder := .chunked (Chunked.new maxHeaders maxSize)

/-- A transport that has everything at once. -/
def whole (s : String) : Rd := ⟨ascii s, [], .eof⟩

/-! `test_read_sized_early_eof`, `test_read_chunked_early_eof` -/

example : decodes 2 (.length 10) (whole "foo bar") = [.data (ascii "foo bar"), .fails .unexpectedEof] := by
  decide +kernel
example : decodes 2 fresh (whole "9\r\nfoo bar") = [.data (ascii "foo bar"), .fails .unexpectedEof] := by
  decide +kernel

/-! `test_read_chunked_single_read`, `test_read_chunked_with_missing_zero_digit`,
`test_read_chunked_trailer_with_missing_lf`, `test_read_chunked_after_eof` -/

example : decodes 1 fresh (whole "10\r\n1234567890abcdef\r\n0\r\n") = [.data (ascii "1234567890abcdef")] := by
  decide +kernel
example : decodes 2 fresh (whole "1\r\nZ\r\n\r\n\r\n") = [.data (ascii "Z"), .fails .invalidInput] := by
  decide +kernel
example : decodes 2 fresh (whole "10\r\n1234567890abcdef\r\n0\r\nbad\r\r\n") =
    [.data (ascii "1234567890abcdef"), .fails .invalidInput] := by decide +kernel
example : decodes 3 fresh (whole "10\r\n1234567890abcdef\r\n0\r\n\r\n") =
    [.data (ascii "1234567890abcdef"), .data [], .data []] := by decide +kernel

/-! `test_read_chunked_extensions_over_limit`, with most of the allowance already used -/

example : decodes 2 (.chunked { Chunked.new none none with ext := CHUNKED_EXTENSIONS_LIMIT - 12 })
      (whole "1;xxxxxxxx\r\nA\r\n1;xxxxxxxx\r\nA\r\n0\r\n\r\n") =
    [.data (ascii "A"), .fails .invalidData] := by decide +kernel

/-! `test_read_length_async`, `test_read_chunked_async`, `test_read_eof_async`: blocking before each
byte of the content -/

/-- The content with a `Pending` at `k`. -/
def blocked (s : String) (k : Nat) : Rd :=
  let bs := ascii s
  let seg (l : Bytes) : List Seg := match l with | [] => [] | b :: t => [.data b t]
  ⟨[], seg (bs.take k) ++ [.pending] ++ seg (bs.drop k), .eof⟩

def asyncOk (s want : String) (d : Decoder) : Bool :=
  (List.range (ascii s).length).all fun k =>
    match d.readAll parseBlock (blocked s k) with
    | .complete bs none _ => bs == ascii want
    | _ => false

example : asyncOk "foobar" "foobar" (.length 6) := by decide +kernel
example : asyncOk "3\r\nfoo\r\n3\r\nbar\r\n0\r\n\r\n" "foobar" fresh := by decide +kernel
example : asyncOk "foobar" "foobar" (.eof false) := by decide +kernel

/-! `test_decode_trailers*`, `test_trailer_max_*` -/

example : parseBlock (ascii
      "Expires: Wed, 21 Oct 2015 07:28:00 GMT\r\nX-Stream-Error: failed to decode\r\n\r\n") 2 =
    some [(ascii "expires", ascii "Wed, 21 Oct 2015 07:28:00 GMT"),
      (ascii "x-stream-error", ascii "failed to decode")] := by decide +kernel
example : parseBlock (ascii "X-Trace: first\r\nX-Trace: second\r\n\r\n") 2 =
    some [(ascii "x-trace", ascii "first"), (ascii "x-trace", ascii "second")] := by decide +kernel

/-- A chunked body with `n` trailer fields with values of `k` bytes. -/
def withFields (n k : Nat) : Rd :=
  ⟨ascii "10\r\n1234567890abcdef\r\n0\r\n" ++
    (List.range n).flatMap (fun i =>
      ascii "trailer" ++ decimal i ++ ascii ": " ++ List.replicate k 120 ++ CRLF) ++ CRLF, [], .eof⟩

/-- The second answer: how many fields, or the kind of the error. -/
def fieldsOf (d : Decoder) (r : Rd) : Except (Option Kind) Nat :=
  match decodes 2 d r with
  | [.data _, .trailers fs] => .ok fs.length
  | [.data _, .fails k] => .error (some k)
  | _ => .error none

example : fieldsOf (fresh (some 10)) (withFields 11 1) = .error (some .invalidData) := by decide +kernel
example : fieldsOf (fresh (some 10)) (withFields 10 1) = .ok 10 := by decide +kernel
example : fieldsOf (fresh none (some 1024)) (withFields 1 1024) = .error (some .invalidData) := by decide +kernel
example : fieldsOf (fresh none (some 640)) (withFields 10 64) = .error (some .invalidData) := by decide +kernel

/-! ## `encode.rs`: `chunked`, `length`, `eof` -/

example : (Encoder.chunked.encode (ascii "foo bar")).1 = ascii "7\r\nfoo bar\r\n" := by decide +kernel
example : ((Encoder.chunked.encode (ascii "foo bar")).2.encode (ascii "baz quux herp")).1 =
    ascii "D\r\nbaz quux herp\r\n" := by decide +kernel
example : ((Encoder.chunked.encode (ascii "foo bar")).2.encode (ascii "baz quux herp")).2.finish =
    .ok (some (ascii "0\r\n\r\n")) := by decide +kernel

def len8 : Encoder := ((Encoder.length 8).encode (ascii "foo bar")).2

example : ((Encoder.length 8).encode (ascii "foo bar")).1 = ascii "foo bar" := by decide +kernel
example : len8.isEof = false ∧ len8.finish = .error 1 := by decide +kernel
example : (len8.encode (ascii "baz")).1 = ascii "b" := by decide +kernel
example : (len8.encode (ascii "baz")).2.isEof = true ∧ (len8.encode (ascii "baz")).2.finish = .ok none := by
  decide +kernel

example : (Encoder.closeDelimited.encode (ascii "foo bar")).1 = ascii "foo bar" := by decide +kernel
example : (Encoder.closeDelimited.encode (ascii "foo bar")).2.isEof = false ∧
    (Encoder.closeDelimited.encode (ascii "foo bar")).2.finish = .ok none := by decide +kernel

/-! `chunked_with_*` -/

def allow (ns : List String) : Encoder := Encoder.chunked.intoChunkedWithTrailingFields (ns.map ascii)

def fields (fs : List (String × List String)) : HeaderMap := fs.map (fun f => (ascii f.1, f.2.map ascii))

example : (allow ["chunky-trailer"]).encodeTrailers
      (fields [("chunky-trailer", ["header data"]), ("should-not-be-included", ["oops"])]) false =
    some (ascii "0\r\nchunky-trailer: header data\r\n\r\n") := by decide +kernel
example : (allow ["chunky-trailer", "chunky-trailer-2"]).encodeTrailers
      (fields [("chunky-trailer", ["header data"]), ("chunky-trailer-2", ["more header data"])]) false =
    some (ascii "0\r\nchunky-trailer: header data\r\nchunky-trailer-2: more header data\r\n\r\n") := by
  decide +kernel
example : (allow ["chunky-trailer"]).encodeTrailers (fields [("chunky-trailer", ["first", "second"])]) false =
    some (ascii "0\r\nchunky-trailer: first\r\nchunky-trailer: second\r\n\r\n") := by decide +kernel
example : Encoder.chunked.encodeTrailers (fields [("chunky-trailer", ["header data"])]) false = none := by
  decide +kernel
example : (allow []).encodeTrailers (fields [("chunky-trailer", ["header data"])]) false = none := by decide +kernel

def forbidden : List String :=
  ["authorization", "cache-control", "content-encoding", "content-length", "content-range", "content-type",
   "host", "max-forwards", "set-cookie", "trailer", "transfer-encoding", "te"]

example : (allow forbidden).encodeTrailers (fields (forbidden.map (fun n => (n, ["header data"])))) true = none := by
  decide +kernel
example : (allow ["chunky-trailer"]).encodeTrailers (fields [("chunky-trailer", ["header data"])]) true =
    some (ascii "0\r\nChunky-Trailer: header data\r\n\r\n") := by decide +kernel

/-! ## `headers.rs`: `te_is_trailers_*` -/

example : teIsTrailers (fields [("te", ["gzip, Trailers"])]) := by decide +kernel
example : teIsTrailers (fields [("te", ["gzip", "trailers"])]) := by decide +kernel
example : ¬ teIsTrailers (fields [("te", ["gzip"])]) := by decide +kernel

/-! ## `length.rs`: `sub_if_*` -/

example : DecodedLength.subIf ⟨30⟩ 20 = some ⟨10⟩ := by decide +kernel
example : DecodedLength.subIf DecodedLength.CHUNKED 20 = some DecodedLength.CHUNKED := by decide +kernel

/-! ## `h1_reason_phrase.rs` -/

example : reasonTryFrom (ascii "OK") = .ok (ascii "OK") := by decide +kernel
example : reasonTryFrom [] = .ok [] := by decide +kernel
example : reasonTryFrom [104, 121, 112, 0xe9, 114] = .ok [104, 121, 112, 0xe9, 114] := by decide +kernel
example : reasonTryFrom (ascii "hyp\ner") = .error 10 := by decide +kernel
example : reasonTryFrom (ascii "hyp\rer") = .error 13 := by decide +kernel

/-! ## `buf.rs` -/

def hello : BufList Bytes := [ascii "Hello", ascii " ", ascii "World"]

example : hello.copyToBytes bytesBuf 4 = some (ascii "Hell", [ascii "o", ascii " ", ascii "World"]) := by
  decide +kernel
example : (hello.copyToBytes bytesBuf 5).map (fun p => (p.1, p.2.chunk bytesBuf, p.2.remaining bytesBuf)) =
    some (ascii "Hello", ascii " ", 6) := by decide +kernel
example : (hello.copyToBytes bytesBuf 7).map (fun p => (p.1, p.2.remaining bytesBuf)) =
    some (ascii "Hello W", 4) := by decide +kernel
example : ((BufList.push [] (ascii "Hello World")).copyToBytes bytesBuf 5).map
    (fun p => (p.1, p.2.chunk bytesBuf)) = some (ascii "Hello", ascii " World") := by decide +kernel
example : hello.copyToBytes bytesBuf 42 = none := by decide +kernel

/-! ## `io.rs`: `read_strategy_adaptive_*` -/

def after (ns : List Nat) : Nat := (ns.foldl ReadStrategy.record (ReadStrategy.withMax defaultMaxBuf)).next

example : after [] = 8192 := by decide +kernel
example : after [8192] = 16384 := by decide +kernel
example : after [8192, 16384] = 32768 := by decide +kernel
example : after [8192, 16384, usizeMax] = 65536 := by decide +kernel
example : after ([8192, 16384] ++ List.replicate 10 defaultMaxBuf) = defaultMaxBuf := by decide +kernel
example : after ([8192, 16384] ++ List.replicate 10 defaultMaxBuf ++ [defaultMaxBuf + 1]) = defaultMaxBuf := by
  decide +kernel
example : after [8192, 1] = 16384 := by decide +kernel
example : after [8192, 1, 8192] = 16384 := by decide +kernel
example : after [8192, 1, 8192, 1] = 16384 := by decide +kernel
example : after [8192, 1, 8192, 1, 1] = 8192 := by decide +kernel
example : after [8192, 1, 8192, 1, 1, 1] = 8192 := by decide +kernel
example : after [8192, 1, 8192, 1, 1, 1, 1] = 8192 := by decide +kernel
example : after [8192, 8193] = 16384 := by decide +kernel
example : after [8192, 8193, 8193] = 16384 := by decide +kernel

/-! `write_buf_flatten`, `write_buf_flatten_partially_flushed`, `write_buf_queue_disable_auto` -/

/-- Head bytes and three buffers. -/
def filled (st : WriteStrategy) : Option (WriteBuf Bytes) :=
  ((((WriteBuf.new st).putHead (ascii "hello ")).buffer bytesBuf true (ascii "world, ")).bind
    (·.buffer bytesBuf true (ascii "it's "))).bind (·.buffer bytesBuf true (ascii "hyper!"))

example : (filled .flatten).map (fun w => (w.queue.length,
      (WriteSide.pollFlush bytesBuf ⟨w, false, ⟨[.wrote 1000], [.ok], [], false⟩⟩ []).2.sink.sent)) =
    some (0, ascii "hello world, it's hyper!") := by decide +kernel
example : (filled .queue).map (fun w => (w.queue.length,
      (WriteSide.pollFlush bytesBuf ⟨w, false, ⟨[.wrote 6, .wrote 7, .wrote 5, .wrote 6], [.ok], [], false⟩⟩ []).1,
      (WriteSide.pollFlush bytesBuf ⟨w, false, ⟨[.wrote 6, .wrote 7, .wrote 5, .wrote 6], [.ok], [], false⟩⟩ []).2.sink.sent,
      (WriteSide.pollFlush bytesBuf ⟨w, false, ⟨[.wrote 6, .wrote 7, .wrote 5, .wrote 6], [.ok], [], false⟩⟩ []).2.wbuf.queue)) =
    some (3, .ok, ascii "hello world, it's hyper!", []) := by decide +kernel

def part1 : Option (WriteBuf Bytes) :=
  (((WriteBuf.new .flatten).buffer bytesBuf true (ascii "hello ")).bind
    (·.buffer bytesBuf true (ascii "world, ")))

def part2 : Option (WriteBuf Bytes) := part1.bind (·.advance bytesBuf 11)

def part3 : Option (WriteBuf Bytes) := part2.bind (·.buffer bytesBuf true (ascii "it's hyper!"))

example : part1.map (·.chunk bytesBuf) = some (ascii "hello world, ") := by decide +kernel
example : part2.map (fun w => (w.chunk bytesBuf, w.headers.pos)) = some (ascii ", ", 11) := by decide +kernel
example : part3.map (fun w => (w.chunk bytesBuf, w.headers.pos)) = some (ascii ", it's hyper!", 11) := by
  decide +kernel
/-- Without room in the vector the old bytes go. -/
example : (part3.bind (·.buffer bytesBuf false (List.replicate 100 88))).map
    (fun w => (w.remaining bytesBuf, w.headers.pos)) = some (113, 0) := by decide +kernel

end Hyper.Conform
