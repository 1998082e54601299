/-!
# The `nom 8` primitives the crate uses

`/repo/Cargo.toml:19` pins `nom = "8"`.  The crate's source is not vendored in `/repo`; the
definitions of this file are the documented behaviour of the `complete` parsers and of the
combinators the crate calls.  They are part of the trusted base (see DESIGN.md).

A slice `&'i [u8]` is modelled by the list of its bytes.  Every slice handled by the parser is a
suffix of the original input, so a list determines the slice (its length gives the offset).
-/

namespace Nrbf

/-- `&[u8]`. -/
abbrev Bytes := List UInt8

/-- The result of running a parser.
`ok`, `error`, `failure` model `Ok((rest, value))`, `Err(nom::Err::Error(_))` and
`Err(nom::Err::Failure(_))`.  `nom::Err::Incomplete` is only produced by streaming parsers; the
crate uses `complete` parsers throughout, so it has no constructor here.
`panic` is a Rust panic (unwinding past the parser), `diverge` is a computation that never returns. -/
inductive Outcome (ε α : Type) where
  | ok (rest : Bytes) (a : α)
  | error (e : ε)
  | failure (e : ε)
  | panic
  | diverge
  deriving Repr, DecidableEq

/-- `nom::error::ErrorKind`, restricted to the kinds that can occur here. -/
inductive ErrorKind where
  | eof | tag | mapRes | mapOpt | verify | fail | alt | tagBits
  deriving Repr, DecidableEq

/-- `nom::error::Error<&[u8]>`: the position and the kind. -/
structure NomError where
  input : Bytes
  kind : ErrorKind
  deriving Repr, DecidableEq

/-- A stateless parser. -/
abbrev PureParser (ε α : Type) := Bytes → Outcome ε α

namespace Outcome

/-- `Result::map` on the parsed value (`nom::combinator::map`). -/
def map {ε α β : Type} (f : α → β) : Outcome ε α → Outcome ε β
  | .ok r a => .ok r (f a)
  | .error e => .error e
  | .failure e => .failure e
  | .panic => .panic
  | .diverge => .diverge

/-- `.map_err(|err| err.map(f))`: change the payload, keep `Error`/`Failure`. -/
def mapErr {ε δ α : Type} (f : ε → δ) : Outcome ε α → Outcome δ α
  | .ok r a => .ok r a
  | .error e => .error (f e)
  | .failure e => .failure (f e)
  | .panic => .panic
  | .diverge => .diverge

/-- `/repo/src/combinator.rs:10-15` `into_failure`, applied through `map_err`. -/
def intoFailure {ε α : Type} : Outcome ε α → Outcome ε α
  | .error e => .failure e
  | r => r

/-- The `?` operator followed by the rest of the function. -/
def bind {ε α β : Type} (x : Outcome ε α) (f : α → PureParser ε β) : Outcome ε β :=
  match x with
  | .ok r a => f a r
  | .error e => .error e
  | .failure e => .failure e
  | .panic => .panic
  | .diverge => .diverge

end Outcome

/-- Splits off the first `n` bytes if there are that many. -/
def takeN (n : Nat) (i : Bytes) : Option (Bytes × Bytes) :=
  if n ≤ i.length then some (i.take n, i.drop n) else none

/-- Little-endian value of a byte string. -/
def leNat : Bytes → Nat
  | [] => 0
  | b :: bs => b.toNat + 256 * leNat bs

/-- Two's complement reading of a `bits`-wide unsigned number. -/
def toSigned (bits n : Nat) : Int :=
  if n < 2 ^ (bits - 1) then (n : Int) else (n : Int) - (2 : Int) ^ bits

/-- `nom::number::complete::{u8, le_u16, le_u24, le_u32, le_u64}` (width in bytes). -/
def leUnsigned (width : Nat) : PureParser NomError Nat := fun i =>
  match takeN width i with
  | some (a, r) => .ok r (leNat a)
  | none => .error ⟨i, .eof⟩

/-- `nom::number::complete::{i8, le_i16, le_i32, le_i64}` (width in bytes). -/
def leSigned (width : Nat) : PureParser NomError Int := fun i =>
  (leUnsigned width i).map (toSigned (8 * width))

/-- `nom::bytes::complete::take`. -/
def take (n : Nat) : PureParser NomError Bytes := fun i =>
  match takeN n i with
  | some (a, r) => .ok r a
  | none => .error ⟨i, .eof⟩

/-- `nom::combinator::value(v, nom::bytes::complete::tag([b]))` for a one-byte tag. -/
def tagByte {α : Type} (v : α) (b : UInt8) : PureParser NomError α := fun i =>
  match i with
  | [] => .error ⟨i, .tag⟩
  | x :: r => if x = b then .ok r v else .error ⟨i, .tag⟩

/-- `nom::combinator::map_res` / `map_opt` with the given error kind: the error position is the
input before the inner parser ran. -/
def mapOpt {α β : Type} (p : PureParser NomError α) (f : α → Option β) (k : ErrorKind) :
    PureParser NomError β := fun i =>
  match p i with
  | .ok r a => match f a with
    | some b => .ok r b
    | none => .error ⟨i, k⟩
  | .error e => .error e
  | .failure e => .failure e
  | .panic => .panic
  | .diverge => .diverge

/-- `nom::branch::alt` over a non-empty tuple.  `Error`s fall through to the next alternative, any
other result is final.  `ParseError::or` and `ParseError::append` both keep the last error. -/
def alt {ε α : Type} (p : PureParser ε α) : List (PureParser ε α) → PureParser ε α
  | [] => p
  | q :: qs => fun i =>
    match p i with
    | .error _ => alt q qs i
    | r => r

/-- `nom::multi::count` (and the loop of `length_count`); `append` keeps the inner error. -/
def count {ε α : Type} (p : PureParser ε α) : Nat → PureParser ε (List α)
  | 0 => fun i => .ok i []
  | n + 1 => fun i =>
    (p i).bind fun a r => (count p n r).map (a :: ·)

/-- `nom::multi::length_count`. -/
def lengthCount {ε α : Type} (len : PureParser ε Nat) (p : PureParser ε α) : PureParser ε (List α) :=
  fun i => (len i).bind fun n => count p n

/-- `nom::combinator::cond`. -/
def cond {ε α : Type} (b : Bool) (p : PureParser ε α) : PureParser ε (Option α) := fun i =>
  if b then (p i).map some else .ok i none

/-- `nom::combinator::opt` on a stateless parser. -/
def opt {ε α : Type} (p : PureParser ε α) : PureParser ε (Option α) := fun i =>
  match p i with
  | .error _ => .ok i none
  | r => r.map some

end Nrbf
