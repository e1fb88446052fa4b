import Verif.Model.ClientParse

/-!
# Reference head parsers

`httparse` is an external crate and is a parameter of the model.  These parsers only show that the
assumptions made about it can be satisfied.
-/

namespace Hyper

/-- One header line, the name as received. -/
def refField (bs : Bytes) : Option ((Bytes × Bytes) × Bytes) :=
  let name := bs.takeWhile isTchar
  if name = [] then none
  else
    match bs.dropWhile isTchar with
    | 58 :: r =>
      match r.dropWhile isValueByte with
      | 13 :: 10 :: rest => some ((name, trimBlanks (r.takeWhile isValueByte)), rest)
      | _ => none
    | _ => none

/-- Header lines up to the empty line: the fields and the rest. -/
def refBlock : Nat → Bytes → Option (List (Bytes × Bytes) × Bytes)
  | _, 13 :: 10 :: rest => some ([], rest)
  | 0, _ => none
  | n + 1, bs =>
    match refField bs with
    | none => none
    | some (f, rest) => (refBlock n rest).map (fun p => (f :: p.1, p.2))

/-- ` HTTP/1.x` and the end of the line. -/
def refVersion (bs : Bytes) : Option (Bool × Bytes) :=
  if bs.take 8 = ascii " HTTP/1." then
    match bs.drop 8 with
    | 49 :: 13 :: 10 :: rest => some (true, rest)
    | 48 :: 13 :: 10 :: rest => some (false, rest)
    | _ => none
  else none

/-- A request head with at most `max` fields. -/
def refRequest (max : Nat) (bs : Bytes) : Option (RawRequest × Nat) :=
  let method := bs.takeWhile isTchar
  match bs.dropWhile isTchar with
  | 32 :: r =>
    let isT := fun b => isValueByte b && !isBlankByte b
    let target := r.takeWhile isT
    if method = [] ∨ target = [] then none
    else
      match refVersion (r.dropWhile isT) with
      | none => none
      | some (v, rest) =>
        (refBlock max rest).map (fun p => (⟨method, target, v, p.1⟩, bs.length - p.2.length))
  | _ => none

/-- Is it a digit? -/
def isDigitByte (b : Byte) : Bool := 48 ≤ b && b ≤ 57

/-- The number denoted by digits. -/
def refNumber (ds : Bytes) : Nat := ds.foldl (fun a d => 10 * a + (d.toNat - 48)) 0

/-- The reason phrase as `httparse` gives it, a string: empty if there are bytes beyond ASCII. -/
def refReason (r : Bytes) : Bytes := if r.any (fun b => 128 ≤ b) then [] else r

/-- A response head with at most `max` fields. -/
def refResponse (max : Nat) (bs : Bytes) : RespParse :=
  if bs.take 7 = ascii "HTTP/1." then
    match bs.drop 7 with
    | v :: 32 :: r =>
      match r.dropWhile isDigitByte with
      | 32 :: r' =>
        match r'.dropWhile isValueByte with
        | 13 :: 10 :: rest =>
          match refBlock max rest with
          | some p => .complete (bs.length - p.2.length)
              ⟨refNumber (r.takeWhile isDigitByte), v == 49, refReason (r'.takeWhile isValueByte), p.1⟩
          | none => .err .internal
        | _ => .err .internal
      | _ => .err .internal
    | _ => .err .internal
  else .err .internal

end Hyper
