import Verif.Spec.C82

/-! Lemmas for C82: one operation on one partition. -/
namespace Verif.C82
open Parse Store

/-- The partition `p` with those before and after it. -/
structure At (A : List Piece) (p : Piece) (B : List Piece) : Prop where
  before : ∀ a ∈ A, a.min ≤ a.max ∧ a.max < p.min
  ok : p.min ≤ p.max
  after : ∀ b ∈ B, p.max < b.min

theorem At.same {A p B} (h : At A p B) {q : Piece} (h1 : q.min = p.min) (h2 : q.max = p.max) : At A q B :=
  ⟨by rw [h1]; exact h.before, by rw [h1, h2]; exact h.ok, by rw [h2]; exact h.after⟩

theorem find_at {A p B} (h : At A p B) {H id} (h1 : p.min ≤ id) (h2 : id ≤ p.max) :
    Store.find ⟨H, A ++ p :: B⟩ id = some p := by
  have hA : A.find? (fun p => decide (p.min ≤ id ∧ id ≤ p.max)) = none := by
    rw [List.find?_eq_none]; intro a ha; have := h.before a ha; simp; omega
  simp only [Store.find, List.find?_append, hA, List.find?_cons, h1, h2, and_self, decide_true, Option.none_or]

theorem put_at {A p B} (h : At A p B) {H} {q : Piece} (hq : q.min = p.min) :
    Store.put ⟨H, A ++ p :: B⟩ q = ⟨H, A ++ q :: B⟩ := by
  have hA : A.map (fun x => if x.min = q.min then q else x) = A := by
    conv => rhs; rw [← List.map_id A]
    refine List.map_congr_left fun a ha => ?_
    have := h.before a ha
    rw [if_neg (by omega)]; rfl
  have hB : B.map (fun x => if x.min = q.min then q else x) = B := by
    conv => rhs; rw [← List.map_id B]
    refine List.map_congr_left fun a ha => ?_
    have := h.after a ha
    have := h.ok
    rw [if_neg (by omega)]; rfl
  simp only [Store.put, List.map_append, List.map_cons, hA, hB]
  rw [if_pos hq.symm]

theorem remove_at {A p B} (h : At A p B) {H} {q : Piece} (hq : q.min = p.min) :
    Store.remove ⟨H, A ++ p :: B⟩ q = ⟨H, A ++ B⟩ := by
  have hA : A.filter (fun x => decide (x.min ≠ q.min)) = A := by
    refine List.filter_eq_self.2 fun a ha => ?_
    have := h.before a ha
    simp; omega
  have hB : B.filter (fun x => decide (x.min ≠ q.min)) = B := by
    refine List.filter_eq_self.2 fun a ha => ?_
    have := h.after a ha
    have := h.ok
    simp; omega
  simp only [Store.remove, List.filter_append, List.filter_cons, hA, hB]
  rw [if_neg (by simp [hq])]

theorem home_at {H : List Home} (hH : H.Pairwise fun h h' => h.name ≠ h'.name) {h : Home} (hh : h ∈ H) {L : List Piece} :
    Store.home ⟨H, L⟩ h.name = some h := by
  induction H with
  | nil => cases hh
  | cons g H ih =>
    rw [List.pairwise_cons] at hH
    simp only [Store.home, List.find?_cons]
    rcases List.mem_cons.1 hh with rfl | h'
    · simp
    · have := hH.1 h h'
      rw [decide_eq_false this]
      exact ih hH.2 h'

/-- A partition as it should be. -/
structure Fit (H : List Home) (p : Piece) : Prop where
  home : ∃ h ∈ H, h.name = p.home ∧ (p.onCloud = true → h.cloud = true)
  file : p.onDisk = false → p.onCloud = false → p.file = []

/-- Without its copy on the cloud, without that on disk. -/
def less (p : Piece) (cloud disk : Bool) : Piece :=
  { p with
    onCloud := p.onCloud && !cloud
    onDisk := p.onDisk && !disk
    file := if ((p.onDisk && !disk) || (p.onCloud && !cloud)) = true then p.file else [] }

section
variable {H : List Home} (hH : H.Pairwise fun h h' => h.name ≠ h'.name) {A B : List Piece} {p : Piece} {h : Home} {id : Nat}
include hH

theorem drop_file_at (ha : At A p B) (hh : h ∈ H) (hn : h.name = p.home) (hc : p.onCloud = true → h.cloud = true)
    (h1 : p.min ≤ id) (h2 : id ≤ p.max) (ie : Bool) (m : Nat) (hf : p.onDisk = false → p.onCloud = false → p.file = []) :
    Store.drop_file ⟨H, A ++ p :: B⟩ id ie false m = .ok ⟨H, A ++ less p (hasCloud m) (hasId m) :: B⟩ true := by
  have hhome : Store.home ⟨H, A ++ p :: B⟩ p.home = some h := by rw [← hn]; exact home_at hH hh
  have hnub : (hasCloud m && p.onCloud && !h.cloud) = false := by
    cases hp : p.onCloud with
    | false => simp
    | true => simp [hc hp]
  simp only [Store.drop_file, find_at ha h1 h2, hhome, Bool.false_and, hnub, Bool.false_eq_true, if_false]
  generalize hasCloud m = x
  generalize hasId m = y
  clear hhome hnub
  obtain ⟨mi, ma, ho, d, c, f, me⟩ := p
  simp only at *
  cases x <;> cases y <;> cases d <;> cases c <;> simp [put_at ha, less] <;> simp_all

theorem download_at (ha : At A p B) (hh : h ∈ H) (hn : h.name = p.home)
    (h1 : p.min ≤ id) (h2 : id ≤ p.max) (ie ic : Bool) (hc : p.onCloud = true → h.cloud = true) :
    Store.download ⟨H, A ++ p :: B⟩ id ie ic =
      if h.cloud || ic then .ok ⟨H, A ++ { p with onDisk := p.onDisk || p.onCloud } :: B⟩ true
      else .error ⟨H, A ++ p :: B⟩ "download: partition has no associated cloud" := by
  have hhome : Store.home ⟨H, A ++ p :: B⟩ p.home = some h := by rw [← hn]; exact home_at hH hh
  simp only [Store.download, find_at ha h1 h2, hhome]
  obtain ⟨mi, ma, ho, d, c, f, me⟩ := p
  simp only at *
  cases hcl : h.cloud <;> cases ic <;> cases d <;> cases c <;> simp_all [put_at ha]

theorem upload_at (ha : At A p B) (hh : h ∈ H) (hn : h.name = p.home)
    (h1 : p.min ≤ id) (h2 : id ≤ p.max) (ie ic : Bool) :
    Store.upload ⟨H, A ++ p :: B⟩ id ie ic =
      if h.cloud then
        if p.onDisk || p.onCloud then .ok ⟨H, A ++ { p with onCloud := true } :: B⟩ true
        else .error ⟨H, A ++ p :: B⟩ "upload: partition file does not exist locally"
      else if ic then .ok ⟨H, A ++ p :: B⟩ true
      else .error ⟨H, A ++ p :: B⟩ "upload: partition storage has no associated cloud" := by
  have hhome : Store.home ⟨H, A ++ p :: B⟩ p.home = some h := by rw [← hn]; exact home_at hH hh
  simp only [Store.upload, find_at ha h1 h2, hhome]
  obtain ⟨mi, ma, ho, d, c, f, me⟩ := p
  simp only at *
  cases hcl : h.cloud <;> cases ic <;> cases d <;> cases c <;> simp [put_at ha]

theorem auto_at (ha : At A p B) (hh : h ∈ H) (hn : h.name = p.home)
    (h1 : p.min ≤ id) (h2 : id ≤ p.max) (ie : Bool) :
    ∃ b, Store.drop_file ⟨H, A ++ p :: B⟩ id ie true 1 =
      .ok ⟨H, A ++ { p with onDisk := p.onDisk && !(h.drop_local && p.onCloud) } :: B⟩ b := by
  have hhome : Store.home ⟨H, A ++ p :: B⟩ p.home = some h := by rw [← hn]; exact home_at hH hh
  simp only [Store.drop_file, find_at ha h1 h2, hhome]
  obtain ⟨mi, ma, ho, d, c, f, me⟩ := p
  simp only at *
  cases hcl : h.drop_local <;> cases d <;> cases c <;> simp [hasCloud, hasId, put_at ha]

omit hH in
theorem refresh_run_at (ha : At A p B) (h1 : p.min ≤ id) (h2 : id ≤ p.max) (ie : Bool) (hc : p.onCloud = false) :
    Store.refresh_run ⟨H, A ++ p :: B⟩ id none ie =
      .ok ⟨H, A ++ { p with onDisk := true, file := p.file ++ p.mem, mem := [] } :: B⟩ true := by
  simp [Store.refresh_run, find_at ha h1 h2, hc, put_at ha]

theorem move_run_at (ha : At A p B) {t : Home} (ht : t ∈ H) (h1 : p.min ≤ id) (h2 : id ≤ p.max) (ie : Bool)
    (hc : p.onCloud = false) :
    ∃ b, Store.refresh_run ⟨H, A ++ p :: B⟩ id (some t.name) ie =
      if t.name = p.home then .ok ⟨H, A ++ p :: B⟩ b
      else .ok ⟨H, A ++ { p with home := t.name, onDisk := true, file := p.file ++ p.mem, mem := [] } :: B⟩ b := by
  have hhome : Store.home ⟨H, A ++ p :: B⟩ t.name = some t := home_at hH ht
  simp only [Store.refresh_run, find_at ha h1 h2, hc, hhome]
  by_cases he : t.name = p.home
  · exact ⟨false, by simp [he]⟩
  · exact ⟨true, by simp [he, put_at ha]⟩

omit hH in
theorem move_none_at (ha : At A p B) {n : List Nat} (ht : ∀ t ∈ H, t.name ≠ n) (h1 : p.min ≤ id) (h2 : id ≤ p.max)
    (ie : Bool) (hc : p.onCloud = false) :
    Store.refresh_run ⟨H, A ++ p :: B⟩ id (some n) ie = .error ⟨H, A ++ p :: B⟩ "refresh: storage not found" := by
  have hhome : Store.home ⟨H, A ++ p :: B⟩ n = none := by
    simp only [Store.home, List.find?_eq_none, decide_eq_true_eq]; exact ht
  simp [Store.refresh_run, find_at ha h1 h2, hc, hhome]

/-- The first two steps of a refresh: the partition is on disk only. -/
theorem front_at (ha : At A p B) (hp : Fit H p) (h1 : p.min ≤ id) (h2 : id ≤ p.max) (ie : Bool)
    (f : Store → Bool → Reply) :
    ((Store.download ⟨H, A ++ p :: B⟩ id ie true).andThen fun s _ => (s.drop id ie 8).andThen f) =
      f ⟨H, A ++ { p with onDisk := p.onDisk || p.onCloud, onCloud := false } :: B⟩ true := by
  obtain ⟨g, hg, hn, hc⟩ := hp.home
  rw [download_at hH ha hg hn h1 h2 ie true hc]
  simp only [Bool.or_true, if_true, Reply.andThen, Store.drop]
  rw [if_neg (by decide)]
  have ha' := ha.same (q := { p with onDisk := p.onDisk || p.onCloud }) rfl rfl
  have hf : ({ p with onDisk := p.onDisk || p.onCloud } : Piece).onDisk = false → p.onCloud = false → p.file = [] := by
    simp only [Bool.or_eq_false_iff]; intro x y; exact hp.file x.1 y
  rw [drop_file_at hH ha' (h := g) hg hn hc h1 h2 ie 8 hf]
  have e1 : hasCloud 8 = true := by decide
  have e2 : hasId 8 = false := by decide
  simp only [e1, e2, less]
  have hf' := hp.file
  clear hf
  obtain ⟨mi, ma, ho, d, c, fi, me⟩ := p
  cases d <;> cases c <;> simp_all

end

end Verif.C82
