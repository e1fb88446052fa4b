import Verif.Model.Headers

/-!
# The header maps of the C API: `hyper_headers` (`src/ffi/http_types.rs` 65-70, 446-582) and
`OriginalHeaderOrder` (`src/ext/mod.rs` 205-298)

Null pointers are not modelled: the functions refuse them at their first line.
-/

namespace Hyper.Ffi

/-- `OriginalHeaderOrder` (ext/mod.rs 204-214): how many entries a name has had, and the entries in the
order they came, each with its index among those of its name. -/
structure Order where
  entries : List (Bytes × Nat)
  order : List (Bytes × Nat)
  deriving DecidableEq, Repr

/-- `OriginalHeaderOrder::default` (ext/mod.rs 218-223). -/
def Order.empty : Order := ⟨[], []⟩

/-- A `HashMap` lookup. -/
def lookup : List (Bytes × Nat) → Bytes → Option Nat
  | [], _ => none
  | (n, k) :: m, x => if n = x then some k else lookup m x

/-- Adding one to the count of an occupied entry. -/
def bump : List (Bytes × Nat) → Bytes → List (Bytes × Nat)
  | [], _ => []
  | (n, k) :: m, x => if n = x then (n, k + 1) :: m else (n, k) :: bump m x

/-- `OriginalHeaderOrder::insert` (ext/mod.rs 225-234). -/
def Order.insert (o : Order) (name : Bytes) : Order :=
  match lookup o.entries name with
  | none => ⟨o.entries ++ [(name, 1)], o.order ++ [(name, 0)]⟩
  | some _ => o

/-- `OriginalHeaderOrder::append` (ext/mod.rs 236-253). -/
def Order.append (o : Order) (name : Bytes) : Order :=
  match lookup o.entries name with
  | some idx => ⟨bump o.entries name, o.order ++ [(name, idx)]⟩
  | none => ⟨o.entries ++ [(name, 1)], o.order ++ [(name, 0)]⟩

/-- `hyper_headers` (http_types.rs 65-70). -/
structure Headers where
  headers : HeaderMap
  casing : HeaderMap
  order : Order
  deriving DecidableEq, Repr

/-- `hyper_headers::default` (http_types.rs 550-556). -/
def Headers.empty : Headers := ⟨[], [], Order.empty⟩

/-- `HeaderValue::from_bytes` (crate `http`) accepts a tab and everything from 0x20 on but 0x7f. -/
def valueOk (v : Bytes) : Bool := v.all (fun b => b == 9 || (32 ≤ b && b != 127))

/-- `raw_name_value` (http_types.rs 559-582): `none` is `HYPERE_INVALID_ARG`. -/
def rawNameValue (raw value : Bytes) : Option Bytes :=
  match headerName raw with
  | none => none
  | some name => if valueOk value then some name else none

/-- `hyper_headers_set` (http_types.rs 510-527); an invalid argument changes nothing. -/
def Headers.set (h : Headers) (raw value : Bytes) : Headers :=
  match rawNameValue raw value with
  | none => h
  | some name => ⟨h.headers.insert name value, h.casing.insert name raw, h.order.insert name⟩

/-- `hyper_headers_add` (http_types.rs 529-547). -/
def Headers.add (h : Headers) (raw value : Bytes) : Headers :=
  match rawNameValue raw value with
  | none => h
  | some name => ⟨h.headers.append name value, h.casing.append name raw, h.order.append name⟩

/-- The name passed to the callback (http_types.rs 462-469). -/
def Headers.nameAt (h : Headers) (name : Bytes) (idx : Nat) : Bytes := ((h.casing.getAll name)[idx]?).getD name

/-- The loop over the recorded order (http_types.rs 461-484) for a callback that never stops it: an
entry without a value ends it. -/
def Headers.inOrder (h : Headers) : List (Bytes × Nat) → List (Bytes × Bytes)
  | [] => []
  | (name, idx) :: rest =>
    match (h.headers.getAll name)[idx]? with
    | some value => (h.nameAt name idx, value) :: h.inOrder rest
    | none => []

/-- The values of one name, each with the next spelling (http_types.rs 489-505). -/
def withNames (name : Bytes) : List Bytes → List Bytes → List (Bytes × Bytes)
  | _, [] => []
  | names, value :: values => (names.head?.getD name, value) :: withNames name names.tail values

/-- `hyper_headers_foreach` (http_types.rs 452-508): the pairs given to a callback that never stops. -/
def Headers.foreach (h : Headers) : List (Bytes × Bytes) :=
  match h.order.order with
  | [] => h.headers.flatMap (fun g => withNames g.1 (h.casing.getAll g.1) g.2)
  | order => h.inOrder order

/-- A callback of the iteration: whether it returns `HYPER_ITER_CONTINUE`, given all calls of it up to this one. -/
abbrev Callback := List (Bytes × Bytes) → Bool

/-- The loop over the recorded order (http_types.rs 461-484) with a callback that may stop it; the calls made. -/
def Headers.inOrderWith (cb : Callback) (h : Headers) : List (Bytes × Bytes) → List (Bytes × Nat) → List (Bytes × Bytes)
  | calls, [] => calls
  | calls, (name, idx) :: rest =>
    match (h.headers.getAll name)[idx]? with
    | some value =>
      if cb (calls ++ [(h.nameAt name idx, value)]) then h.inOrderWith cb (calls ++ [(h.nameAt name idx, value)]) rest
      else calls ++ [(h.nameAt name idx, value)]
    | none => calls

/-- The values of one name (http_types.rs 489-505) with a callback that may stop; the calls made and whether it goes on. -/
def withNamesWith (cb : Callback) (name : Bytes) : List (Bytes × Bytes) → List Bytes → List Bytes → List (Bytes × Bytes) × Bool
  | calls, _, [] => (calls, true)
  | calls, names, value :: values =>
    if cb (calls ++ [(names.head?.getD name, value)]) then withNamesWith cb name (calls ++ [(names.head?.getD name, value)]) names.tail values
    else (calls ++ [(names.head?.getD name, value)], false)

/-- The loop over the names (http_types.rs 486-506) with such a callback. -/
def Headers.byNameWith (cb : Callback) (h : Headers) : List (Bytes × Bytes) → HeaderMap → List (Bytes × Bytes)
  | calls, [] => calls
  | calls, g :: m =>
    match withNamesWith cb g.1 calls (h.casing.getAll g.1) g.2 with
    | (calls, true) => h.byNameWith cb calls m
    | (calls, false) => calls

/-- `hyper_headers_foreach` (http_types.rs 452-508): the calls of the callback. -/
def Headers.foreachWith (cb : Callback) (h : Headers) : List (Bytes × Bytes) :=
  match h.order.order with
  | [] => h.byNameWith cb [] h.headers
  | order => h.inOrderWith cb [] order

/-- The header loop of `Client::parse` with the order (role.rs 1122-1146): one field. -/
def Headers.receive (preserveCase preserveOrder : Bool) (h : Headers) (f : Bytes × Bytes) : Headers :=
  match headerName f.1 with
  | none => h
  | some name =>
    ⟨h.headers.append name f.2, if preserveCase then h.casing.append name f.1 else h.casing,
      if preserveOrder then h.order.append name else h.order⟩

/-- The headers of a received response as `hyper_response::wrap` (http_types.rs 391-408) takes them:
those that were not recorded are empty. -/
def Headers.received (preserveCase preserveOrder : Bool) (fs : List (Bytes × Bytes)) : Headers :=
  fs.foldl (Headers.receive preserveCase preserveOrder) Headers.empty

/-- A call of the C API. -/
inductive Op where
  | set (raw value : Bytes)
  | add (raw value : Bytes)
  deriving DecidableEq, Repr

/-- One call. -/
def Headers.step (h : Headers) : Op → Headers
  | .set raw value => h.set raw value
  | .add raw value => h.add raw value

/-- A sequence of calls. -/
def Headers.run (h : Headers) (ops : List Op) : Headers := ops.foldl Headers.step h

end Hyper.Ffi
