import Verif.Proofs.C46

/-! C46: compression contexts. -/
namespace Verif.C46

/-- Partial: right for every history that does not obtain a ZSTD context after
an LZ4 one (in particular when only one codec is used).  Missing: mixed
histories, for which it is false (C46_codec_false). -/
theorem C46_codec_partial (ops : List Op) (h : Tame ops) : Right ops :=
  run_spec ops start true ⟨rfl, fun _ => ⟨by simp [start, CodecMgr.init], by simp [start]⟩⟩ (by simp) h

/-- The witness: use LZ4, return the context, ask for ZSTD: an LZ4 context is
returned, because both codecs are returned to the ZSTD cache. -/
theorem C46_lz4_served_as_zstd :
    (run start [.obtain .lz4, .giveBack 0, .obtain .zstd]).2 = [(.lz4, ⟨.lz4, 0⟩), (.zstd, ⟨.lz4, 0⟩)] := by
  decide

/-- No context is given to two users, whatever the history. -/
theorem C46_exclusive (ops : List Op) : Exclusive ops := by
  have h := run_once ops start (by simp [Once, start, CodecMgr.init])
  refine ⟨?_, fun c hc => ⟨fun hz => ?_, fun hz => ?_⟩⟩
  · exact (List.nodup_append.1 h.1).1
  · exact (List.nodup_append.1 h.1).2.2 _ (List.mem_map_of_mem hc) _
      (List.mem_append_left _ (List.mem_map_of_mem hz)) rfl
  · exact (List.nodup_append.1 h.1).2.2 _ (List.mem_map_of_mem hc) _
      (List.mem_append_right _ (List.mem_map_of_mem hz)) rfl

theorem C46_codec_false : ¬ Full := by
  intro h
  have := (h [.obtain .lz4, .giveBack 0, .obtain .zstd]).1 (.zstd, ⟨.lz4, 0⟩) (by
    rw [C46_lz4_served_as_zstd]; simp)
  simp at this

/-- The hypothesis is met by a history with reuse of a context. -/
example : Tame [.obtain .zstd, .giveBack 0, .obtain .zstd, .obtain .lz4] := by
  intro pre post e
  match pre, e with
  | [], _ => simp
  | [_], e => simp at e
  | [_, _], e => simp at e; obtain ⟨rfl, rfl, _⟩ := e; simp
  | [_, _, _], e => simp at e
  | _ :: _ :: _ :: _ :: _, e => simp at e

end Verif.C46
