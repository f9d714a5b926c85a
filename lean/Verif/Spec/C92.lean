import Verif.Model.Api

/-! C92: what an application may expect of handles and of the answers of calls. -/
namespace Verif.C92
open Verif.Api

/-- A call that was made: the thread, the call and the answer. -/
structure Entry where
  thread : Nat
  call : Call
  ret : Ret

/-- The handles that an application holds after its calls, the last call first: each
with the environment it belongs to, if it is a cursor. -/
def held : List Entry → List (Nat × Option Nat)
  | [] => []
  | e :: tr =>
    match e.call, e.ret with
    | .init _ _, .handle (some p) => (p, none) :: held tr
    | .cursor h _ _, .handle (some p) => (p, some h) :: held tr
    | .free p, _ => (held tr).filter (fun x => x.1 ≠ p)
    | _, _ => held tr

/-- The application gives only handles that it holds, and of the right kind. -/
def Holds (tr : List Entry) : Call → Prop
  | .init _ _ => True
  | .open_ h _ | .execute h _ | .write h _ | .cursor h _ _ => (h, none) ∈ held tr
  | .read c _ | .next c _ => ∃ e, (c, some e) ∈ held tr
  | .free p => ∃ k, (p, k) ∈ held tr
  | .error => True

/-- And it frees the cursors of an environment before the environment. -/
def InOrder (tr : List Entry) : Call → Prop
  | .free p => ∀ c, (c, some p) ∉ held tr
  | _ => True

/-- Calls and their answers, the last call first, and the world they lead to. -/
inductive History (may : List Entry → Call → Prop) : List Entry → World → Prop
  | start : History may [] start
  | call (tr w t c w' ret) : History may tr w → may tr c → step w t c = .ok (w', ret) →
      History may (⟨t, c, ret⟩ :: tr) w'

/-- Whatever is called next, nothing undefined happens. -/
def Safe (may : List Entry → Call → Prop) : Prop :=
  ∀ tr w, History may tr w → ∀ t c, may tr c → ∀ m, step w t c ≠ .ub m ∧ step w t c ≠ .abort m

/-- What a call was made of. -/
def body : Call → Option Body
  | .init _ b | .open_ _ b | .execute _ b | .write _ b | .cursor _ _ b | .read _ b | .next _ b => some b
  | .free _ | .error => none

/-- The call could not get memory for a handle. -/
def Starved : Call → Prop
  | .init mem _ | .cursor _ mem _ => mem = none
  | _ => False

/-- The call threw an error that ended it. -/
def Threw (c : Call) (m : Bytes) : Prop := ¬ Starved c ∧ ∃ b, body c = some b ∧ b.out = .thrown m

/-- Something inside threw an error that did not end the call. -/
def Inside (c : Call) : Prop := ¬ Starved c ∧ ∃ b, body c = some b ∧ b.caught ≠ []

/-- The answer says that the call failed. -/
def Says : Ret → Prop
  | .rc v => v = -1
  | .handle p => p = none
  | .text _ | .nothing => False

/-- What the bodies give is what the program gives: 0 or 1, and errors with a text. -/
def Sane (c : Call) : Prop :=
  ∀ b, body c = some b → (∀ v, b.out = .done v → 0 ≤ v) ∧ (∀ m, b.out = .thrown m → m ≠ []) ∧
    ∀ m ∈ b.caught, m ≠ []

/-- The answer tells if the call failed, and the text of the thread is the reason: the
error that ended the call, up to 255 bytes of it; no text if nothing went wrong. -/
structure Right (c : Call) (ret : Ret) (text : Bytes) : Prop where
  fails : Says ret ↔ Starved c ∨ (∃ m, Threw c m) ∨ Inside c
  reason : ∀ m, Threw c m → text = m.take 255
  some_reason : Says ret → text ≠ []
  none_else : ¬ Says ret → text = []

/-- Calls that ask for the text are not counted as calls. -/
def Asks (e : Entry) : Prop := e.call = .error

/-- Every answer is right, and the text stays until the next call of the thread. -/
def Tells (may : List Entry → Call → Prop) : Prop :=
  ∀ tr mid t c ret w, History may (mid ++ ⟨t, c, ret⟩ :: tr) w → Sane c → c ≠ .error →
    (∀ e ∈ mid, e.thread = t → Asks e) → ∃ text, step w t .error = .ok (w, .text text) ∧
      Right c ret text

/-- Handles are distinct, and nothing is left when all are freed. -/
def Clean (may : List Entry → Call → Prop) : Prop :=
  ∀ tr w, History may tr w → ((held tr).map (·.1)).Nodup ∧ (held tr = [] → ∀ p, w.memory p = none)

def Full : Prop := Safe Holds ∧ Tells Holds ∧ Clean Holds

end Verif.C92
