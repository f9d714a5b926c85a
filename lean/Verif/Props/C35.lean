import Verif.Proofs.Config

namespace Verif.C35
open Data Config C34 Json

/-- Saving and loading restores every saved variable, when no string contains a
quote that is not escaped, no integer is within 48 of the ends of the 64-bit
range, and no value is a real.  Missing from the full property: those values
(see `C35_false_string`, `C35_false_int`). -/
theorem C35_restores_partial (fp : Bytes → Option (Nat × Nat)) (fmt : Nat → Bytes) (d : Nat) (cfg fresh : List Var)
    (hd : 2 ≤ d) (hc : Table cfg) (hf : Table fresh)
    (hv : ∀ v ∈ cfg, Saved v → Valid d (fun s => delimited false s = true) SmallInt Plain v) :
    Restores fp fmt d cfg fresh := restores hd hc hf hv

/-- The same for any value on its own, in both forms of the text: what is read
back stands for the same value. -/
theorem C35_json_partial (fp : Bytes → Option (Nat × Nat)) (fmt : Nat → Bytes) (d : Nat) (x : Val) (bs : Bytes)
    (hx : Plain x) (hd : depth x ≤ d) (he : Encodes x bs) :
    (∃ t out, export_ fmt d bs = .ok t ∧ parse fp d t = .ok out ∧ Encodes x out) ∧
    (∃ t out, export_pretty fmt d bs = .ok t ∧ parse fp d t = .ok out ∧ Encodes x out) := by
  have h := fun pretty => export_text fmt pretty x hx d hd 0 bs [] he
  simp only [List.append_nil] at h
  refine ⟨⟨_, _, ?_, parse_text fp false x hx d hd 0, encodes_enc32 x⟩,
    ⟨_, _, ?_, parse_text fp true x hx d hd 0, encodes_enc32 x⟩⟩
  · unfold export_; rw [h false, Res.bind_ok]
  · unfold export_pretty; rw [h true, Res.bind_ok]

/-- The condition on strings is the exact one. -/
theorem C35_string_iff (fp : Bytes → Option (Nat × Nat)) (d : Nat) (s rest : Bytes) :
    Json.read fp (d + 1) 0 ([34] ++ s ++ [34] ++ rest) = .ok (34, rest, data_write_raw s) ↔ delimited false s = true := by
  constructor
  · intro h
    have hn : next 0 ([34] ++ s ++ [34] ++ rest) = (34, 34 :: (s ++ 34 :: rest)) := by
      have := next_zero (b := 34) (s ++ 34 :: rest) (by decide)
      have e : [34] ++ s ++ [34] ++ rest = 34 :: (s ++ 34 :: rest) := by simp
      rw [e, this]
      rfl
    simp only [Json.read, hn] at h
    rw [if_neg (by decide), if_neg (by decide), if_neg (by decide), if_pos (by trivial), List.drop_succ_cons, List.drop_zero] at h
    have h := Res.ok.inj h
    cases hs : scan false (s ++ 34 :: rest) with
    | none =>
      rw [hs] at h
      have : (-1 : Int) = 34 := congrArg (·.1) h
      exact absurd this (by decide)
    | some p =>
      rw [hs] at h
      have hr : p.2 = rest := congrArg (·.2.1) h
      exact delimited_of_scan s rest false p.1 (by rw [hs, ← hr])
  · intro h
    have := read_str fp d h rest
    simpa using this

/-- `prepare` with another value of a string or integer variable. -/
def withString (name : String) (flags : Nat) (s : Bytes) : List Var :=
  update prepare (Decode.cstr name) { add name .string flags "" 0 with str := s }
def withInt (name : String) (flags : Nat) (n : Nat) : List Var :=
  update prepare (Decode.cstr name) { add name .int flags "" 0 with int := n }

def textOf (cfg : List Var) : Bytes :=
  match saveText (fun _ => []) 4 cfg with
  | .ok t => t
  | _ => []

/-- SET compression TO 'a"b' makes a configuration file that cannot be loaded:
the database does not open any more. -/
theorem C35_false_string :
    Table (withString "compression" 3 [97, 34, 98]) ∧
    saveText (fun _ => []) 4 (withString "compression" 3 [97, 34, 98]) = .ok (textOf (withString "compression" 3 [97, 34, 98])) ∧
    open_ (fun _ => none) (fun _ => []) 4 prepare ⟨some (textOf (withString "compression" 3 [97, 34, 98])), none⟩ =
      .err "json parse error" := by
  unfold Table
  decide +kernel

/-- An interval of 2^63-1 is written as such and its last digit overflows
`int64_t` when it is read. -/
theorem C35_false_int :
    Table (withInt "interval" 35 9223372036854775807) ∧
    saveText (fun _ => []) 4 (withInt "interval" 35 9223372036854775807) = .ok (textOf (withInt "interval" 35 9223372036854775807)) ∧
    open_ (fun _ => none) (fun _ => []) 4 prepare ⟨some (textOf (withInt "interval" 35 9223372036854775807)), none⟩ =
      .ub "signed integer overflow" := by
  unfold Table
  decide +kernel

/-- A real whose text needs more than 32 characters, e.g. 1e30: writing it reads
past the end of a buffer on the stack. -/
theorem C35_false_real (fmt : Nat → Bytes) (d : Nat) (x : Nat) (h : 32 < (fmt x).length)
    (hx : data_read_real (data_write_real x) = .ok (x, [])) :
    export_ fmt (d + 1) (data_write_real x) = .ub "read past the end of buf" := by
  obtain ⟨t, r, he, h1⟩ : ∃ t r, data_write_real x = t :: r ∧ (t.toNat = 3 ∨ t.toNat = 4) := by
    unfold data_write_real
    split
    · exact ⟨_, _, rfl, .inl (tag_toNat (by omega))⟩
    · exact ⟨_, _, rfl, .inr (tag_toNat (by omega))⟩
  rw [he] at hx ⊢
  unfold export_
  simp only [exportAs]
  rw [if_neg (by omega), if_neg (by simp [data_is_bool]; omega), if_pos (by simp [data_is_real]; omega), hx, Res.bind_ok]
  dsimp only
  unfold realText
  rw [if_neg (by omega), if_neg (by omega)]
  rfl

/-- C35 in full fails. -/
theorem C35_false : ¬ Full := by
  intro h
  have hvalid : ∀ v ∈ withString "compression" 3 [97, 34, 98], Saved v → Valid 4 (fun _ => True) (fun _ => True) (fun _ => True) v := by
    intro v hv _
    have hb : ∀ v ∈ withString "compression" 3 [97, 34, 98],
        v.int < 18446744073709551616 ∧ v.str.length + 5 < 2147483648 ∧ (v.type = .bool → v.int = 0 ∨ v.int = 1) ∧
        (v.type = .data → v.str = []) := by decide +kernel
    obtain ⟨h1, h2, h3, h4⟩ := hb v hv
    unfold Valid
    cases ht : v.type with
    | bool => exact h3 ht
    | int => exact ⟨h1, trivial⟩
    | string => exact ⟨h2, trivial⟩
    | data => exact ⟨.null, .inl ⟨h4 ht, rfl⟩, by simp [Fits], trivial, by decide⟩
  obtain ⟨text, h1, h2⟩ := h (fun _ => none) (fun _ => []) 4 _ prepare (by decide) C35_false_string.1 rfl hvalid
  rw [C35_false_string.2.1] at h1
  have h1 := Res.ok.inj h1
  subst h1
  obtain ⟨cfg', h3, _⟩ := h2 none
  rw [C35_false_string.2.2] at h3
  cases h3

/-! The hypotheses are met: the defaults with one storage, and a nested value. -/
example : ∀ v ∈ update prepare (Decode.cstr "storages")
      { add "storages" .data 5 "" 0 with str := enc (.arr (.cons (.map (.cons [110] (.str [109, 92, 34]) .nil)) .nil)) },
    Saved v → Valid 4 (fun s => delimited false s = true) SmallInt Plain v := by
  intro v hv _
  have hb : ∀ v ∈ update prepare (Decode.cstr "storages")
      { add "storages" .data 5 "" 0 with str := enc (.arr (.cons (.map (.cons [110] (.str [109, 92, 34]) .nil)) .nil)) },
      v.int < 9223372036854775000 ∧ v.str.length + 5 < 2147483648 ∧ delimited false v.str = true ∧
      (v.type = .bool → v.int = 0 ∨ v.int = 1) ∧
      (v.type = .data → v.str = [] ∨ v.str = enc (.arr (.cons (.map (.cons [110] (.str [109, 92, 34]) .nil)) .nil))) := by
    decide +kernel
  obtain ⟨h1, h2, h3, h4, h5⟩ := hb v hv
  unfold Valid
  cases ht : v.type with
  | bool => exact h4 ht
  | int => exact ⟨by omega, by unfold SmallInt toS64 wrapS64; omega⟩
  | string => exact ⟨h2, h3⟩
  | data =>
    rcases h5 ht with h | h
    · exact ⟨.null, .inl ⟨h, rfl⟩, by simp [Fits], trivial, by decide⟩
    · refine ⟨_, .inr (h ▸ encodes_enc _), ?_, ?_, by decide⟩
      · simp [Fits, FitsAll, FitsMap, Vals.len, Maps.len]
      · simp [Plain, PlainAll, PlainMap, Vals.len, Maps.len, delimited]

end Verif.C35
