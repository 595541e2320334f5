/-!
# Rust primitives used by the model

Build modes, panics, fixed-width arithmetic.  Cites: general Rust semantics; `Cargo.toml` (default
profiles: `debug` checks integer overflow, `release` wraps).
-/

namespace MapEditr

/-- Bytes of `Vec<u8>` / `&[u8]`. -/
abbrev Bytes := List UInt8

/-- Cargo profile.  `README.md` tells users to build with `--release`; `cargo build` gives `debug`.
Only integer overflow differs between the two. -/
inductive Build | debug | release
  deriving DecidableEq, Repr

/-- `MapBlockError`, `src/map_block/mod.rs:24-34`. -/
inductive MbErr | badData | invalidBlockVersion | invalidFeature | invalidSubVersion
  deriving DecidableEq, Repr

/-- Why a computation stopped early: a `Result::Err(MapBlockError)` or a Rust panic
(`unwrap` on none/err, `assert!`, out-of-range index, overflow in a debug build). -/
inductive Stop
  | err (e : MbErr)
  | panic (why : String)
  deriving DecidableEq, Repr

/-- Computations that can return `Err(MapBlockError)` or panic. -/
abbrev Res := Except Stop

deriving instance DecidableEq for Except

/-- `Option::unwrap`. -/
def unwrap (why : String) : Option α → Res α
  | some a => .ok a
  | none => .error (.panic why)

/-- `assert!(c)`. -/
def rassert (c : Bool) (why : String) : Res Unit :=
  if c then .ok () else .error (.panic why)

/-- The result of a `u16` addition whose mathematical value is `n`: exact if it fits, otherwise a
panic (debug) or the wrapped value (release). -/
def u16 (b : Build) (n : Nat) : Res Nat :=
  if n < 65536 then .ok n
  else match b with
    | .debug => .error (.panic "u16 overflow")
    | .release => .ok (n % 65536)

/-- The result of the `u16` subtraction `m - n`. -/
def u16sub (b : Build) (m n : Nat) : Res Nat :=
  if n ≤ m then .ok (m - n)
  else match b with
    | .debug => .error (.panic "u16 overflow")
    | .release => .ok (m + 65536 - n)

/-- `as u16` on a signed integer: keep the low 16 bits. -/
def asU16 (n : Int) : Nat := (n % 65536).toNat

/-- `as usize` on a signed integer (64-bit target). -/
def asUsize (n : Int) : Nat := (n % 18446744073709551616).toNat

/-- `as i32` on a wider signed integer: keep the low 32 bits. -/
def wrapI32 (n : Int) : Int := (n + 2147483648) % 4294967296 - 2147483648

/-- The result of an `i32` operation whose mathematical value is `n`. -/
def i32 (b : Build) (n : Int) : Res Int :=
  if -2147483648 ≤ n ∧ n ≤ 2147483647 then .ok n
  else match b with
    | .debug => .error (.panic "i32 overflow")
    | .release => .ok (wrapI32 n)

/-- The result of an `i64` operation whose mathematical value is `n`. -/
def i64 (b : Build) (n : Int) : Res Int :=
  if -9223372036854775808 ≤ n ∧ n ≤ 9223372036854775807 then .ok n
  else match b with
    | .debug => .error (.panic "i64 overflow")
    | .release => .ok ((n + 9223372036854775808) % 18446744073709551616 - 9223372036854775808)

/-- `v[i]` (read). -/
def idx (l : List α) (i : Nat) : Res α :=
  match l[i]? with
  | some a => .ok a
  | none => .error (.panic "index out of bounds")

/-- `v[i] = a` (write). -/
def setIdx (l : List α) (i : Nat) (a : α) : Res (List α) :=
  if i < l.length then .ok (l.set i a) else .error (.panic "index out of bounds")

end MapEditr
