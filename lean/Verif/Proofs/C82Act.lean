import Verif.Proofs.C82

/-! Lemmas for C82: what a command does to one partition. -/
namespace Verif.C82
open Parse Store

/-- The operation of a command on one partition. -/
def act (c : Partition) (s : Store) (m : Nat) (ie : Bool) : Reply :=
  match c.type with
  | .drop | .dropRange => s.drop m ie c.mask
  | .move | .moveRange => s.refresh m (some c.storage) ie
  | .refresh | .refreshRange => s.refresh m none ie
  | .download | .downloadRange => s.download m ie c.ifCloud
  | .upload | .uploadRange => s.upload m ie c.ifCloud
  | .create => .other

theorem act_drop {c : Partition} (h : Drop c) (s : Store) (m : Nat) (ie : Bool) : act c s m ie = s.drop m ie c.mask := by
  rcases h with h | h <;> simp [act, h]
theorem act_move {c : Partition} (h : Move c) (s : Store) (m : Nat) (ie : Bool) :
    act c s m ie = s.refresh m (some c.storage) ie := by
  rcases h with h | h <;> simp [act, h]
theorem act_refresh {c : Partition} (h : Refresh c) (s : Store) (m : Nat) (ie : Bool) :
    act c s m ie = s.refresh m none ie := by
  rcases h with h | h <;> simp [act, h]
theorem act_download {c : Partition} (h : Download c) (s : Store) (m : Nat) (ie : Bool) :
    act c s m ie = s.download m ie c.ifCloud := by
  rcases h with h | h <;> simp [act, h]
theorem act_upload {c : Partition} (h : Upload c) (s : Store) (m : Nat) (ie : Bool) :
    act c s m ie = s.upload m ie c.ifCloud := by
  rcases h with h | h <;> simp [act, h]

theorem kinds (c : Partition) (h : c.type ≠ .create) : Drop c ∨ Move c ∨ Refresh c ∨ Download c ∨ Upload c := by
  cases ht : c.type <;> simp_all [Drop, Move, Refresh, Download, Upload]

section
variable {H : List Home} (hH : H.Pairwise fun h h' => h.name ≠ h'.name) {A B : List Piece} {p : Piece} {id : Nat}
include hH

/-- The last two steps of a refresh, after the partition has been written. -/
theorem back_at (ha : At A p B) {h : Home} (hh : h ∈ H) (hn : h.name = p.home) (h1 : p.min ≤ id) (h2 : id ≤ p.max)
    (ie : Bool) (hd : p.onDisk = true) (hc : p.onCloud = false) :
    ∃ b, ((Store.upload ⟨H, A ++ p :: B⟩ id true true).andThen fun s _ => s.drop_file id ie true 1) =
      .ok ⟨H, A ++ Piece.into p h :: B⟩ b := by
  rw [upload_at hH ha hh hn h1 h2]
  obtain ⟨mi, ma, ho, d, c, f, me⟩ := p
  simp only at *
  subst hd hc hn
  cases hcl : h.cloud
  · simp only [Bool.false_eq_true, if_false, if_true, Reply.andThen]
    obtain ⟨b, hb⟩ := auto_at hH ha hh rfl h1 h2 ie
    exact ⟨b, by rw [hb]; simp [Piece.into, hcl]⟩
  · simp only [if_true, Bool.true_or, Reply.andThen]
    have ha' := ha.same (q := ⟨mi, ma, h.name, true, true, f, me⟩) rfl rfl
    obtain ⟨b, hb⟩ := auto_at hH ha' hh rfl h1 h2 ie
    exact ⟨b, by rw [hb]; simp [Piece.into, hcl]⟩

theorem refresh_at (ha : At A p B) (hp : Fit H p) {h : Home} (hh : h ∈ H) (hn : h.name = p.home)
    (h1 : p.min ≤ id) (h2 : id ≤ p.max) (ie : Bool) :
    ∃ b, Store.refresh ⟨H, A ++ p :: B⟩ id none ie =
      .ok ⟨H, A ++ Piece.into { p with file := p.file ++ p.mem, mem := [] } h :: B⟩ b := by
  rw [Store.refresh, front_at hH ha hp h1 h2 ie,
    refresh_run_at (ha.same (q := { p with onDisk := p.onDisk || p.onCloud, onCloud := false }) rfl rfl) h1 h2 ie rfl]
  exact back_at hH (p := { p with onDisk := true, onCloud := false, file := p.file ++ p.mem, mem := [] })
    (ha.same rfl rfl) hh hn h1 h2 ie rfl rfl

theorem move_at (ha : At A p B) (hp : Fit H p) {h : Home} (hh : h ∈ H) (hn : h.name ≠ p.home)
    (h1 : p.min ≤ id) (h2 : id ≤ p.max) (ie : Bool) :
    ∃ b, Store.refresh ⟨H, A ++ p :: B⟩ id (some h.name) ie =
      .ok ⟨H, A ++ Piece.into { p with file := p.file ++ p.mem, mem := [] } h :: B⟩ b := by
  rw [Store.refresh, front_at hH ha hp h1 h2 ie]
  obtain ⟨b, hb⟩ := move_run_at hH (ha.same (q := { p with onDisk := p.onDisk || p.onCloud, onCloud := false }) rfl rfl)
    hh h1 h2 ie rfl
  rw [hb, if_neg hn]
  exact back_at hH
    (p := { p with home := h.name, onDisk := true, onCloud := false, file := p.file ++ p.mem, mem := [] })
    (ha.same rfl rfl) hh rfl h1 h2 ie rfl rfl

theorem stay_at (ha : At A p B) (hp : Fit H p) {h : Home} (hh : h ∈ H) (hn : h.name = p.home)
    (h1 : p.min ≤ id) (h2 : id ≤ p.max) (ie : Bool) :
    (h.cloud = true → p.onDisk = true ∨ p.onCloud = true) →
    ∃ b, Store.refresh ⟨H, A ++ p :: B⟩ id (some h.name) ie =
      .ok ⟨H, A ++ (if h.cloud && (p.onDisk || p.onCloud) then Piece.into p h else p) :: B⟩ b := by
  intro hx
  obtain ⟨g, hg, gn, gc⟩ := hp.home
  have hgh : g = h := by
    have e1 := home_at hH (L := []) hg
    have e2 := home_at hH (L := []) hh
    rw [gn, ← hn] at e1
    rw [e1] at e2
    exact Option.some.inj e2
  subst hgh
  rw [Store.refresh, front_at hH ha hp h1 h2 ie]
  obtain ⟨b, hb⟩ := move_run_at hH (ha.same (q := { p with onDisk := p.onDisk || p.onCloud, onCloud := false }) rfl rfl)
    hh h1 h2 ie rfl
  rw [hb, if_pos hn]
  cases hcl : g.cloud with
  | true =>
    have hany : (p.onDisk || p.onCloud) = true := by rw [Bool.or_eq_true]; exact hx hcl
    obtain ⟨b', hb'⟩ := back_at hH
      (p := { p with onDisk := p.onDisk || p.onCloud, onCloud := false })
      (ha.same rfl rfl) hh hn h1 h2 ie hany rfl
    refine ⟨b', ?_⟩
    simp only [Reply.andThen] at hb' ⊢
    rw [hb', hany]
    rfl
  | false =>
    have hpc : p.onCloud = false := by
      cases h : p.onCloud with
      | false => rfl
      | true => rw [gc h] at hcl; cases hcl
    have hpe : ({ p with onDisk := p.onDisk || p.onCloud, onCloud := false } : Piece) = p := by
      obtain ⟨mi, ma, ho, d, c, f, me⟩ := p
      simp only at hpc; subst hpc
      simp
    rw [hpe]
    simp only [Reply.andThen]
    rw [upload_at hH ha hh hn h1 h2]
    simp only [hcl, Bool.false_eq_true, if_false, if_true, Bool.false_and]
    obtain ⟨b', hb'⟩ := auto_at hH ha hh hn h1 h2 ie
    refine ⟨b', ?_⟩
    rw [hb', hpc, Bool.and_false, Bool.not_false, Bool.and_true]
    cases p
    simp only at hpc
    subst hpc
    rfl

theorem stay_refused_at (ha : At A p B) (hp : Fit H p) {h : Home} (hh : h ∈ H) (hn : h.name = p.home)
    (h1 : p.min ≤ id) (h2 : id ≤ p.max) (ie : Bool) (hc : h.cloud = true) (hd : p.onDisk = false) (ho : p.onCloud = false) :
    Store.refresh ⟨H, A ++ p :: B⟩ id (some h.name) ie =
      .error ⟨H, A ++ p :: B⟩ "upload: partition file does not exist locally" := by
  rw [Store.refresh, front_at hH ha hp h1 h2 ie]
  obtain ⟨b, hb⟩ := move_run_at hH (ha.same (q := { p with onDisk := p.onDisk || p.onCloud, onCloud := false }) rfl rfl)
    hh h1 h2 ie rfl
  have hpe : ({ p with onDisk := p.onDisk || p.onCloud, onCloud := false } : Piece) = p := by
    obtain ⟨mi, ma, ho', d, c, f, me⟩ := p
    simp only at hd ho; subst hd ho
    simp
  rw [hb, if_pos hn, hpe]
  simp only [Reply.andThen]
  rw [upload_at hH ha hh hn h1 h2]
  simp [hc, hd, ho]

theorem missing_at (ha : At A p B) (hp : Fit H p) {n : List Nat} (hh : ∀ t ∈ H, t.name ≠ n)
    (h1 : p.min ≤ id) (h2 : id ≤ p.max) (ie : Bool) :
    Store.refresh ⟨H, A ++ p :: B⟩ id (some n) ie =
      .error ⟨H, A ++ { p with onDisk := p.onDisk || p.onCloud, onCloud := false } :: B⟩ "refresh: storage not found" := by
  rw [Store.refresh, front_at hH ha hp h1 h2 ie]
  rw [move_none_at (ha.same (q := { p with onDisk := p.onDisk || p.onCloud, onCloud := false }) rfl rfl) hh h1 h2 ie rfl]
  rfl

theorem less_both (ha : At A p B) (hp : Fit H p) (h1 : p.min ≤ id) (h2 : id ≤ p.max) (ie : Bool) :
    Store.drop ⟨H, A ++ p :: B⟩ id ie 9 = .ok ⟨H, A ++ B⟩ true := by
  obtain ⟨g, hg, gn, gc⟩ := hp.home
  simp only [Store.drop, if_true, Store.drop_loop]
  rw [drop_file_at hH ha hg gn gc h1 h2 ie 9 hp.file]
  have e1 : hasCloud 9 = true := by decide
  have e2 : hasId 9 = true := by decide
  simp only [Reply.andThen, e1, e2, Bool.not_true, Bool.false_eq_true, if_false, less, Bool.and_false, Bool.or_self]
  have ha' := ha.same (q := { p with onCloud := false, onDisk := false, file := [] }) rfl rfl
  simp only [Store.drop_reference, find_at ha' h1 h2, Bool.or_self, Bool.false_eq_true, if_false, if_true]
  rw [remove_at ha' rfl]

theorem drop_cloud_at (ha : At A p B) (hp : Fit H p) (h1 : p.min ≤ id) (h2 : id ≤ p.max) (ie : Bool) :
    Store.drop ⟨H, A ++ p :: B⟩ id ie 8 =
      .ok ⟨H, A ++ { p with onCloud := false, file := if p.onDisk then p.file else [] } :: B⟩ true := by
  obtain ⟨g, hg, gn, gc⟩ := hp.home
  have e1 : hasCloud 8 = true := by decide
  have e2 : hasId 8 = false := by decide
  rw [Store.drop, if_neg (by decide), drop_file_at hH ha hg gn gc h1 h2 ie 8 hp.file, e1, e2]
  simp [less]

theorem drop_storage_at (ha : At A p B) (hp : Fit H p) (h1 : p.min ≤ id) (h2 : id ≤ p.max) (ie : Bool) :
    Store.drop ⟨H, A ++ p :: B⟩ id ie 1 =
      .ok ⟨H, A ++ { p with onDisk := false, file := if p.onCloud then p.file else [] } :: B⟩ true := by
  obtain ⟨g, hg, gn, gc⟩ := hp.home
  have e1 : hasCloud 1 = false := by decide
  have e2 : hasId 1 = true := by decide
  rw [Store.drop, if_neg (by decide), drop_file_at hH ha hg gn gc h1 h2 ie 1 hp.file, e1, e2]
  simp [less]

/-- What is possible is done. -/
theorem act_does (ha : At A p B) (hp : Fit H p) (h1 : p.min ≤ id) (h2 : id ≤ p.max) (ie : Bool) {c : Partition}
    {r : Option Piece} (hr : Does H c p r)
    (he : Move c → ∀ h ∈ H, h.name = c.storage → h.name = p.home → h.cloud = true → p.onDisk = true ∨ p.onCloud = true) :
    ∃ b, act c ⟨H, A ++ p :: B⟩ id ie = .ok ⟨H, A ++ (r.toList ++ B)⟩ b := by
  cases hr with
  | drop hd hm => rw [act_drop hd, hm]; exact ⟨_, less_both hH ha hp h1 h2 ie⟩
  | dropCloud hd hm => rw [act_drop hd, hm]; exact ⟨_, drop_cloud_at hH ha hp h1 h2 ie⟩
  | dropStorage hd hm => rw [act_drop hd, hm]; exact ⟨_, drop_storage_at hH ha hp h1 h2 ie⟩
  | @download h hd hh hn hc =>
    obtain ⟨g, hg, gn, gc⟩ := hp.home
    have : g = h := by
      have e1 := home_at hH (L := []) hg
      have e2 := home_at hH (L := []) hh
      rw [gn, ← hn, e2] at e1
      exact (Option.some.inj e1).symm
    subst this
    rw [act_download hd, download_at hH ha hg gn h1 h2 ie _ gc, if_pos (by simpa using hc)]
    exact ⟨_, rfl⟩
  | @upload h hd hh hn hc hx =>
    rw [act_upload hd, upload_at hH ha hh hn h1 h2, if_pos hc, if_pos (by simpa using hx)]
    exact ⟨_, rfl⟩
  | @uploadNot h hd hh hn hc hx =>
    rw [act_upload hd, upload_at hH ha hh hn h1 h2, if_neg (by simp [hc]), if_pos hx]
    exact ⟨_, rfl⟩
  | @refresh h hd hh hn => rw [act_refresh hd]; exact refresh_at hH ha hp hh hn h1 h2 ie
  | @move h hd hh hn hne => rw [act_move hd, ← hn]; exact move_at hH ha hp hh hne h1 h2 ie
  | @stay h hd hh hn heq =>
    rw [act_move hd, ← hn]
    exact stay_at hH ha hp hh heq h1 h2 ie (he hd h hh hn heq)

/-- What is not possible is refused; but see MOVE. -/
theorem act_refused (ha : At A p B) (hp : Fit H p) (h1 : p.min ≤ id) (h2 : id ≤ p.max) (ie : Bool) {c : Partition}
    (ht : c.type ≠ .create) (hm : Drop c → c.mask = 9 ∨ c.mask = 8 ∨ c.mask = 1) (hr : ∀ r, ¬ Does H c p r) :
    (∃ m, act c ⟨H, A ++ p :: B⟩ id ie = .error ⟨H, A ++ p :: B⟩ m) ∨
    (Move c ∧ (∀ t ∈ H, t.name ≠ c.storage) ∧ ∃ m, act c ⟨H, A ++ p :: B⟩ id ie =
      .error ⟨H, A ++ { p with onDisk := p.onDisk || p.onCloud, onCloud := false } :: B⟩ m) := by
  obtain ⟨g, hg, gn, gc⟩ := hp.home
  rcases kinds c ht with h | h | h | h | h
  · rcases hm h with e | e | e
    · exact absurd (.drop h e) (hr _)
    · exact absurd (.dropCloud h e) (hr _)
    · exact absurd (.dropStorage h e) (hr _)
  · by_cases hs : ∃ t ∈ H, t.name = c.storage
    · obtain ⟨t, ht, hn⟩ := hs
      by_cases he : t.name = p.home
      · exact absurd (.stay h ht hn he) (hr _)
      · exact absurd (.move h ht hn he) (hr _)
    · have hs' : ∀ t ∈ H, t.name ≠ c.storage := fun t ht hn => hs ⟨t, ht, hn⟩
      refine .inr ⟨h, hs', ?_⟩
      rw [act_move h]
      exact ⟨_, missing_at hH ha hp hs' h1 h2 ie⟩
  · exact absurd (.refresh h hg gn) (hr _)
  · refine .inl ?_
    rw [act_download h, download_at hH ha hg gn h1 h2 ie _ gc]
    by_cases hc : g.cloud = true ∨ c.ifCloud = true
    · exact absurd (.download h hg gn hc) (hr _)
    · rw [if_neg (by simpa using hc)]; exact ⟨_, rfl⟩
  · refine .inl ?_
    rw [act_upload h, upload_at hH ha hg gn h1 h2]
    by_cases hc : g.cloud = true
    · by_cases hx : p.onDisk = true ∨ p.onCloud = true
      · exact absurd (.upload h hg gn hc hx) (hr _)
      · rw [if_pos hc, if_neg (by simpa using hx)]; exact ⟨_, rfl⟩
    · by_cases hx : c.ifCloud = true
      · exact absurd (.uploadNot h hg gn (by simpa using hc) hx) (hr _)
      · rw [if_neg hc, if_neg hx]; exact ⟨_, rfl⟩

end

end Verif.C82
