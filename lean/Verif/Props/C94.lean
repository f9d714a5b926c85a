import Verif.Proofs.C94
import Verif.Props.C91
import Verif.Props.C14

/-! C94: a refresh reads every region of the old file once, in order, one at a
time. -/
namespace Verif.C94
open Spec Io Reads RefreshReads

/-- The refresh with notes is the refresh of `Verif.Whole`: the new file is written
from the same events. -/
theorem C94_same (env : Whole.Env) (s : Slice Cursor.CPart) (pad : Event → Bytes) (tc tr : Nat) :
    Whole.mergeFile env s pad tc tr =
      (execute env.cs env.mc (s.val.prev.count + (Whole.originOf s.val).index.events) s.min s.val.prev
        (Whole.originOf s.val)).bind fun (es, _) =>
      (writeFile env.cs env.src (Whole.stopArg s tc tr) (es.map fun e => ⟨e, pad e⟩)).bind fun w =>
      .ok ⟨w.file, w.index_writer.index, w.index_writer.data⟩ := by
  have h := execute_same env.cs env.mc (s.val.prev.count + (Whole.originOf s.val).index.events) s.min s.val.prev
    (Whole.originOf s.val)
  have e : ∀ (k : List Event → Res PartFile), ((execute env.cs env.mc (s.val.prev.count + (Whole.originOf s.val).index.events)
      s.min s.val.prev (Whole.originOf s.val)).bind fun x => k x.1) =
      ((execute env.cs env.mc (s.val.prev.count + (Whole.originOf s.val).index.events) s.min s.val.prev
        (Whole.originOf s.val)).map (·.1)).bind k := fun k => by rw [C91.bind_map]
  refine Eq.trans ?_ (e fun es =>
    (writeFile env.cs env.src (Whole.stopArg s tc tr) (es.map fun e => ⟨e, pad e⟩)).bind fun w =>
    .ok ⟨w.file, w.index_writer.index, w.index_writer.data⟩).symm
  rw [← h]
  unfold Whole.mergeFile
  cases Memtable.iterOpen env.mc s.val.prev none with
  | err m => rfl
  | abort m => rfl
  | ub m => rfl
  | ok x =>
    simp only [Res.bind_ok]
    cases PartIterator.open_ env.cs env.mc (Whole.originOf s.val) none with
    | err m => rfl
    | abort m => rfl
    | ub m => rfl
    | ok y => rfl

/-- For any table and any content of the file, damaged or not, whatever the codecs
and memcmp do: a refresh that comes to its end has read the first regions of the
file, each once and in order, by their entries in the index. -/
theorem C94_once (cs : Codecs) (mc : MemCmp) (fuel part : Nat) (mem : Memtable) (p : PartFile) (es : List Event)
    (log : List Read) (h : execute cs mc fuel part mem p = .ok (es, log)) :
    ∃ n ≤ p.index.regions, First part p n log := by
  obtain ⟨m, h1, _, rfl⟩ := execute_end h
  obtain ⟨s, f, k1, k2, k3, _⟩ := states_inv (P := AInv part p) (fun f => open_any) (fun f f' => next_any) h1
  rw [two_log k1 k3]
  obtain ⟨n, q1, q2, _⟩ := k2.seq
  exact ⟨n, q2, q1, k2.log⟩

/-- Partial: the property for files within the limits of C15, or no file, for every
table.  Missing: files of 4 GiB and more and codecs that make data longer than
their limits allow (C15). -/
theorem C94_partial (cs : Codecs) (mc : MemCmp) (part : Nat) (mem : Memtable) (ms : List EventMem) (p : PartFile)
    (h : OldWithin cs ms p) : Reads cs mc part mem p := by
  obtain ⟨rs, hg⟩ := rep_of h
  exact reads_of hg

/-- Partial: a refresh comes to its end, with the new file of C14, for tables
within the limits of C07 and ids in one window of 2^63; so C94_once and
C94_partial speak of every such refresh. -/
theorem C94_ends_partial (sp ss base win : Nat) (cs : Codecs) (mc : MemCmp) (part : Nat) (es : List Event) (mem : Memtable)
    (ms : List EventMem) (p : PartFile) (h1 : 0 < ss) (h2 : ss < sp)
    (hrun : ∃ ps, C07.run mc (Memtable.init sp ss) es = .ok (mem, ps)) (hw : ∀ e ∈ es, Within base e)
    (ht : C07.Tame sp ss es) (hp : Cursor.FileOf cs ms p) (hwf : ∀ m ∈ ms, WF m.event)
    (ha : Ascending (ms.map (·.event))) (hm : ∀ e ∈ es, C13.Window win e)
    (hf : ∀ m ∈ ms, C13.Window win m.event) (fuel : Nat) (hfuel : (C07.table es).length + ms.length ≤ fuel) :
    ∃ out log, execute cs mc fuel part mem p = .ok (out, log) ∧
      C14.NewFile (C07.table es) (ms.map (·.event)) out ∧ First part p p.index.regions log := by
  have hr := Cursor.table_reach h1 h2 hrun hw ht
  have hsc := Memtable.scan_all mc hr.inv
  unfold Memtable.scan at hsc
  obtain ⟨⟨mi, b⟩, i1, i2⟩ := Res.bind_eq_ok.1 hsc
  obtain ⟨rs, k1, k2, _⟩ := Cursor.file_rep hp hwf ha
  obtain ⟨it, k3, k4⟩ := scan_ok (mc := mc) k1
  rw [k2] at k4
  obtain ⟨out, o1, o2⟩ := C14.C14_new_file_partial mc (Cursor.fns cs mc) (.mem mem mi) (.file it) win
    (C07.table es) (ms.map (·.event)) ⟨C07.table_ascending es, fun e he => hm e (Cursor.mem_table he)⟩
    ⟨ha, fun e he => by obtain ⟨m, h, rfl⟩ := List.mem_map.1 he; exact hf m h⟩
    (Cursor.mem_yields cs mc mem _ mi _ i2) (Cursor.file_yields cs mc k4) fuel (by rw [List.length_map]; exact hfuel)
  have hs := execute_same cs mc fuel part mem p
  rw [i1, Res.bind_ok] at hs
  dsimp only at hs
  rw [k3, Res.bind_ok] at hs
  dsimp only at hs
  rw [o1] at hs
  cases he : execute cs mc fuel part mem p with
  | ok x =>
    rw [he] at hs
    cases hs
    exact ⟨x.1, x.2, rfl, o2, (C94_partial cs mc part mem ms p (.inl ⟨hp, hwf, ha⟩)).1 fuel x.1 x.2 he⟩
  | err m => rw [he] at hs; cases hs
  | abort m => rw [he] at hs; cases hs
  | ub m => rw [he] at hs; cases hs

/-- The hypotheses are met, with a table of two events, one of which deletes an
event of the file. -/
example : ∃ f mem, Cursor.FileOf C11.plain C11.two f ∧
    (∃ ps, C07.run memCmpStd (Memtable.init 512 508) [⟨5, 0, [], [7]⟩, ⟨8, 1, [], []⟩] = .ok (mem, ps)) ∧
    ∃ out log, execute C11.plain memCmpStd 9 0 mem f = .ok (out, log) ∧ First 0 f f.index.regions log := by
  obtain ⟨f, hf⟩ := C11.two_file
  have hw : ∀ e ∈ [(⟨5, 0, [], [7]⟩ : Event), ⟨8, 1, [], []⟩], Within 0 e := by simp [Within]
  have ht : C07.Tame 512 508 [(⟨5, 0, [], [7]⟩ : Event), ⟨8, 1, [], []⟩] := C11.short_tame _ (by decide)
  obtain ⟨mem, ps, h, _⟩ := C07.run_tame memCmpStd (by decide) (by decide) 0 _ hw ht
  refine ⟨f, mem, hf, ⟨ps, h⟩, ?_⟩
  obtain ⟨out, log, o1, _, o3⟩ := C94_ends_partial 512 508 0 0 C11.plain memCmpStd 0 _ mem C11.two f (by decide) (by decide)
    ⟨ps, h⟩ hw ht hf (by simp [C11.two, WF]) (by simp only [C11.two, Ascending]; decide) (by simp [C13.Window])
    (by simp [C11.two, C13.Window]) 9 (by decide)
  exact ⟨out, log, o1, o3⟩

/-- The regions that a refresh reads, and the ids it writes. -/
def sample (f : PartFile) : Option (List Nat × List (Nat × Nat)) :=
  match execute C11.plain memCmpStd 9 0 C11.tab f with
  | .ok (es, log) => some (es.map (·.id), log.map fun r => (r.part, r.pos))
  | _ => none

set_option maxRecDepth 100000 in
theorem sample_reads : (match writeFile C11.plain C11.src C11.arg C11.two with
    | .ok w => match part_open C11.plain w.file with
      | .ok f => decide (w.file.length < 400) && decide (sample f = some ([3, 5, 8], [(0, 0), (0, 1)]))
      | _ => false
    | _ => false) = true := by decide +kernel

/-- The hypotheses are met: a file of two regions and a table with one event
between them. -/
example : ∃ f es log, OldWithin C11.plain C11.two f ∧ execute C11.plain memCmpStd 9 0 C11.tab f = .ok (es, log) ∧
    es.map (·.id) = [3, 5, 8] ∧ First 0 f 2 log ∧ f.index.regions = 2 := by
  obtain ⟨w, hw⟩ := write_safe (cs := C11.plain) (s := C11.src) C11.arg (ms := C11.two) (by intro e he; simp [C11.src] at he)
    (by simp [C11.two, WF]) (by decide) (by decide)
  have h := sample_reads
  rw [hw] at h
  dsimp only at h
  have ha : ArgWF C11.src C11.arg := by simp [ArgWF, C11.arg, C11.src]
  have hg : C15.NoGrowth C11.plain C11.src C11.two w.index_writer.data := ⟨fun _ _ _ => trivial, trivial⟩
  cases hf : part_open C11.plain w.file with
  | ok f =>
    rw [hf] at h
    simp only [Bool.and_eq_true, decide_eq_true_eq] at h
    obtain ⟨h1, h2⟩ := h
    have hold : OldWithin C11.plain C11.two f := .inl ⟨⟨C11.src, C11.arg, w, hw, hf, ha, by omega, hg⟩,
      by simp [C11.two, WF], by simp only [C11.two, Ascending]; decide⟩
    unfold sample at h2
    cases he : execute C11.plain memCmpStd 9 0 C11.tab f with
    | ok x =>
      obtain ⟨es, log⟩ := x
      rw [he] at h2
      have h2 := Option.some.inj h2
      have hr := (C94_partial _ memCmpStd 0 C11.tab _ f hold).1 9 es log he
      have hlen : f.index.regions = 2 := by
        have e1 : log.length = f.index.regions := by
          have := congrArg List.length hr.1
          simpa using this
        have e2 := congrArg List.length (Prod.mk.inj h2).2
        simp at e2
        omega
      exact ⟨f, es, log, hold, he, (Prod.mk.inj h2).1, hlen ▸ hr, hlen⟩
    | err m => rw [he] at h2; cases h2
    | abort m => rw [he] at h2; cases h2
    | ub m => rw [he] at h2; cases h2
  | err m => rw [hf] at h; cases h
  | abort m => rw [hf] at h; cases h
  | ub m => rw [hf] at h; cases h

end Verif.C94
