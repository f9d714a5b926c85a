import Verif.Model.Codec

/-! C46: a compression context obtained for a codec is of that codec. -/
namespace Verif.C46

/-- What readers and writers do: obtain a context for a codec, or return the
`i`-th of the contexts they hold. -/
inductive Op where
  | obtain (c : Codec)
  | giveBack (i : Nat)
deriving Repr, DecidableEq

/-- Manager and the contexts in use. -/
structure State where
  mgr : CodecMgr
  held : List Context

def start : State := ⟨.init, []⟩

/-- One call; an `obtain` reports what was asked for and what was returned. -/
def step (s : State) : Op → State × List (Codec × Context)
  | .obtain c =>
    let (x, m) := s.mgr.pop c
    (⟨m, x :: s.held⟩, [(c, x)])
  | .giveBack i =>
    match s.held[i]? with
    | none => (s, [])
    | some x => (⟨s.mgr.push x, s.held.eraseIdx i⟩, [])

def run (s : State) : List Op → State × List (Codec × Context)
  | [] => (s, [])
  | o :: os =>
    let (s1, r1) := step s o
    let (s2, r2) := run s1 os
    (s2, r1 ++ r2)

/-- Every context obtained in the history is of the codec asked for. -/
def Right (ops : List Op) : Prop := ∀ p ∈ (run start ops).2, p.2.codec = p.1

/-- No context is with two users at once: the contexts in use are all
different, and none of them is still in a cache. -/
def Exclusive (ops : List Op) : Prop :=
  ((run start ops).1.held.map (·.serial)).Nodup ∧
  ∀ c ∈ (run start ops).1.held, c ∉ (run start ops).1.mgr.zstd ∧ c ∉ (run start ops).1.mgr.lz4

/-- The full property. -/
def Full : Prop := ∀ ops, Right ops ∧ Exclusive ops

/-- A history that does not obtain a ZSTD context after an LZ4 context. -/
def Tame (ops : List Op) : Prop :=
  ∀ pre post, ops = pre ++ Op.obtain .zstd :: post → Op.obtain .lz4 ∉ pre

end Verif.C46
