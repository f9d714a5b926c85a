/-
Outcomes and machine integers shared by all models.

/repo is compiled with gcc on 64-bit Linux (build/CMakeLists.txt:36-42), so
`int` is 32-bit two's complement, pointers and `long` are 64-bit, and a
conversion of an out-of-range value to a signed type keeps the low bits
(gcc's documented choice for the implementation-defined case).
-/
namespace Verif

/-- Result of running a piece of the C code.

* `ok`    : the call returned normally,
* `err`   : the call threw with `error(...)` (runtime/runtime/throw.h:36-40),
* `abort` : an `assert` of the Debug build failed (the Release build of
            build/CMakeLists.txt defines NDEBUG, there the code runs on),
* `ub`    : the C program has undefined behaviour from this point on. -/
inductive Res (α : Type) where
  | ok (a : α)
  | err (msg : String)
  | abort (what : String)
  | ub (what : String)
deriving Repr, DecidableEq, Inhabited

namespace Res
variable {α β : Type}

/-- Sequencing: the first outcome that is not `ok` is final. -/
def bind (x : Res α) (f : α → Res β) : Res β :=
  match x with
  | ok a    => f a
  | err m   => err m
  | abort w => abort w
  | ub w    => ub w

def map (f : α → β) (x : Res α) : Res β := x.bind fun a => ok (f a)

instance : Monad Res where
  pure := ok
  bind := bind

@[simp] theorem pure_def (a : α) : (pure a : Res α) = ok a := rfl
@[simp] theorem bind_ok (a : α) (f : α → Res β) : bind (ok a) f = f a := rfl
@[simp] theorem bind_err (m : String) (f : α → Res β) : bind (err m) f = err m := rfl
@[simp] theorem bind_abort (m : String) (f : α → Res β) : bind (abort m) f = abort m := rfl
@[simp] theorem bind_ub (m : String) (f : α → Res β) : bind (ub m) f = ub m := rfl
@[simp] theorem bind_def (x : Res α) (f : α → Res β) : (x >>= f) = bind x f := rfl

theorem bind_eq_ok {x : Res α} {f : α → Res β} {b : β} :
    bind x f = ok b ↔ ∃ a, x = ok a ∧ f a = ok b := by
  cases x <;> simp [bind]

end Res

/-- 2^31, 2^32, 2^63 and 2^64 as plain numerals (kept as literals for `omega`). -/
abbrev pow31 : Nat := 2147483648
abbrev pow32 : Nat := 4294967296
abbrev pow63 : Nat := 9223372036854775808
abbrev pow64 : Nat := 18446744073709551616

/-- Conversion to `int64_t`: keep the low 64 bits, two's complement. -/
def wrapS64 (x : Int) : Int :=
  (x + 9223372036854775808) % 18446744073709551616 - 9223372036854775808

/-- Conversion to `int` (32 bits): keep the low 32 bits, two's complement. -/
def wrapS32 (x : Int) : Int := (x + 2147483648) % 4294967296 - 2147483648

/-- `uint64_t` arithmetic: the value modulo 2^64. -/
def wrapU64 (x : Int) : Nat := (x % 18446744073709551616).toNat

/-- `uint32_t` arithmetic: the value modulo 2^32. -/
def wrapU32 (x : Int) : Nat := (x % 4294967296).toNat

/-- A `uint64_t` bit pattern read as `int64_t`. -/
def toS64 (x : Nat) : Int := wrapS64 (x : Int)

theorem wrapS64_id {x : Int} (h1 : -9223372036854775808 ≤ x) (h2 : x < 9223372036854775808) :
    wrapS64 x = x := by unfold wrapS64; omega

theorem wrapS32_id {x : Int} (h1 : -2147483648 ≤ x) (h2 : x < 2147483648) :
    wrapS32 x = x := by unfold wrapS32; omega

theorem wrapU64_id {x : Nat} (h : x < 18446744073709551616) : wrapU64 (x : Int) = x := by
  unfold wrapU64; omega

end Verif
