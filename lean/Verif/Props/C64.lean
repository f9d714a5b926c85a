import Verif.Proofs.C64
import Verif.Props.C63

namespace Verif.C64
open Data Decode Show C34 Spec

/-- Partial: a SHOW command in any state of an open database is answered with a
JSON text for the document that describes the state, and refused if something
named is not there.  Missing from the full property: documents with a string
that has a quote, a backslash or a control character in it and documents with
numbers from 2^63 (`Clean`; false, below), and partition numbers from 2^63 or far
from every partition (`Fits`). -/
theorem C64_partial (fmt : Nat → Bytes) (d : Nat) (env : Parse.Env) (text : List Nat) (ops : List Parse.ShowOp) (w : World)
    (L : List (Slice Nat)) (hp : Parse.parse env text = .ok (.show ops)) (hw : Consistent w L) (hf : ∀ op ∈ ops, Fits L op) :
    (∀ xs y, Each (fun op x => Answer w L op (some x)) ops xs → document xs y → C35.depth y ≤ d → Clean y →
      ∃ t, execute_show fmt d w ops = .ok t ∧ IsJson y t) ∧
    ((∃ op ∈ ops, Answer w L op none) → ∃ e, execute_show fmt d w ops = .err e) := by
  obtain ⟨hne, hF⟩ := formed hp
  constructor
  · intro xs y hx hy hd hc
    obtain ⟨bs, h1, h2⟩ := show_encodes hw hne hf hx hy
    have h3 := Json.export_any fmt true y hc.writable d hd 0 _ [] h2
    rw [List.append_nil] at h3
    refine ⟨_, ?_, text_json y hc 0⟩
    unfold execute_show Json.export_pretty
    rw [h1, Res.bind_ok, h3, Res.bind_ok]
  · intro h
    obtain ⟨e, he⟩ := ops_err hw ops (fun op ho => ⟨hF op ho, hf op ho⟩) h
    exact ⟨e, by unfold execute_show; rw [he, Res.bind_err]⟩

/-! A database in a directory with a quote in its name. -/

def world1 : World :=
  { mem := Mm.init 2097152 0 false false 0
    vars := Config.prepare.map fun v => if v.name = cstr "directory" then { v with str := cstr "a\"b" } else v
    wal := []
    clouds := []
    storages := []
    part := fun _ => ⟨0, 99, 1, { events := 5 }, 2, 0, 1, 0, 3, 4, 1⟩
    map := ⟨.nil, 0⟩
    tiers := [] }

theorem ints_prepare : ∀ v ∈ Config.prepare, v.int < 18446744073709551616 := by decide +kernel

theorem world1_consistent : Consistent world1 [] := by
  refine ⟨by decide, by decide, ?_, ?_, by decide, by decide, by decide, by decide, rfl, rfl, by simp, by simp, by simp,
    by simp [world1], by simp [world1]⟩
  · unfold C35.Table world1
    rw [List.map_map]
    apply List.map_congr_left
    intro v _
    simp only [Function.comp]
    split <;> rfl
  · intro v hv
    simp only [world1, List.mem_map] at hv
    obtain ⟨u, hu, rfl⟩ := hv
    have := ints_prepare u hu
    split <;> exact this

/-- C64 is false of the code: `SHOW directory` answers `"a"b"`. -/
theorem C64_false : ¬ Full := by
  intro h
  have h := (h (fun _ => []) 9 ⟨1000, [], 0, ⟨1, 2⟩, []⟩ (Lex.bytes "show directory")
    [⟨.name, .name (Lex.bytes "directory"), false⟩] world1 [] (by decide +kernel) world1_consistent).1
    [.str (cstr "a\"b")] (.str (cstr "a\"b")) ?_ rfl (by decide)
  · obtain ⟨t, h1, b, hb, ht⟩ := h
    have e : execute_show (fun _ => []) 9 world1 [⟨.name, .name (Lex.bytes "directory"), false⟩] =
      .ok [34, 97, 34, 98, 34] := by decide +kernel
    rw [e] at h1
    simp only [Res.ok.injEq] at h1
    rw [← h1] at ht
    have : b = [97, 34, 98] := by
      have ht : [97, 34, 98] ++ [34] = b ++ [34] := by simpa using ht
      exact (List.append_cancel_right ht).symm
    subst this
    cases hb with
    | plain _ _ _ _ _ _ h =>
      cases h with
      | plain _ _ _ _ h => exact absurd rfl h
  · refine ⟨⟨Lex.bytes "directory", .inl rfl, .inl ⟨⟨cstr "directory", .string, 16, 0, cstr "a\"b"⟩, by decide +kernel,
      by decide +kernel, _, rfl, rfl⟩⟩, trivial⟩

/-- A database with a partition that has all ids. -/
def world2 : World :=
  { C63.world0 "one" "k" with
    part := fun _ => ⟨0, 18446744073709551615, 1, { events := 5 }, 2, 0, 1, 0, 3, 4, 1⟩
    map := ⟨.node .black .nil ⟨0, 18446744073709551615, 1⟩ .nil, 1⟩ }

/-- The last id of a partition is shown as a negative number when it is 2^63 or
more: [0, 2^64 - 1] is shown as ending at -1. -/
theorem C64_signed : ∃ rest, execute_show (fun _ => []) 9 world2 [⟨.partition, .int 5, false⟩] =
    .ok (cstr "{\n  \"min\": 0,\n  \"max\": -1,\n" ++ rest) := by
  have h : (match execute_show (fun _ => []) 9 world2 [⟨.partition, .int 5, false⟩] with
      | .ok t => t.take 27 == cstr "{\n  \"min\": 0,\n  \"max\": -1,\n"
      | _ => false) = true := by decide +kernel
  split at h
  · next t e =>
    rw [e, ← eq_of_beq h]
    exact ⟨t.drop 27, by rw [List.take_append_drop]⟩
  · simp at h

/-! The hypotheses are met by a database with a cloud, a storage and a partition. -/

theorem world0_consistent : Consistent (C63.world0 "one" "k") [⟨0, 99, 1⟩] := by
  refine ⟨by decide, by decide, (C63.world0_saved "one" "k").table, ?_, by decide, by decide, by decide, by decide, rfl, rfl,
    by simp, by simp, by simp [C63.world0, C63.storage0], ?_, ?_⟩
  · intro v hv
    simp only [C63.world0, List.mem_map] at hv
    obtain ⟨u, hu, rfl⟩ := hv
    have := ints_prepare u hu
    split
    · exact this
    · split <;> exact this
  · intro st hs a ha; simp [C63.world0]
  · intro st hs
    simp only [C63.world0, List.mem_singleton] at hs
    subst hs
    decide

/-- A partition and the log. -/
example : ∃ ops xs y,
    Parse.parse ⟨1000, [], 0, ⟨1, 2⟩, []⟩ (Lex.bytes "show partition 5 debug, memory, partitions main") = .ok (.show ops) ∧
    (∀ op ∈ ops, Fits [⟨0, 99, 1⟩] op) ∧
    Each (fun op x => Answer (C63.world0 "one" "k") [⟨0, 99, 1⟩] op (some x)) ops xs ∧ document xs y ∧ C35.depth y ≤ 9 ∧ Clean y := by
  refine ⟨[⟨.partition, .int 5, true⟩, ⟨.memory, .keyword (.kw "memory") (Lex.bytes "memory"), false⟩,
    ⟨.partitions, .name (Lex.bytes "main"), false⟩],
    [_, _, _], _, by decide +kernel, ?_, ⟨.inl ⟨⟨0, 99, 1⟩, by simp, ⟨by decide, by decide⟩, _, ⟨C63.storage0 "k", by simp [C63.world0], rfl, rfl⟩, rfl⟩, rfl,
      .inl ⟨C63.storage0 "k", by simp [C63.world0], by decide +kernel, [_], ⟨⟨C63.storage0 "k", by simp [C63.world0], rfl, rfl⟩, trivial⟩, rfl⟩, trivial⟩, rfl, ?_, ?_⟩
  · intro op ho ht n hn
    simp only [List.mem_cons, List.not_mem_nil, or_false] at ho
    rcases ho with rfl | rfl | rfl
    · cases hn
      refine ⟨by decide, by simp, ?_⟩
      intro s hs
      simp only [List.mem_singleton] at hs
      subst hs
      decide
    · cases ht
    · cases ht
  · decide +kernel
  · exact clean_ok _ (by decide +kernel)

/-- A storage that is not there. -/
example : Answer (C63.world0 "one" "k") [⟨0, 99, 1⟩] ⟨.storages, .name (Lex.bytes "other"), false⟩ none ∧
    Parse.parse ⟨1000, [], 0, ⟨1, 2⟩, []⟩ (Lex.bytes "show storage other") = .ok (.show [⟨.storages, .name (Lex.bytes "other"), false⟩]) := by
  refine ⟨.inr ⟨?_, rfl⟩, by decide +kernel⟩
  intro s hs
  simp only [C63.world0, List.mem_singleton] at hs
  subst hs
  decide +kernel

end Verif.C64
