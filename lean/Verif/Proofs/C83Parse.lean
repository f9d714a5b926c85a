import Verif.Spec.C83
import Verif.Proofs.ParseLex
import Verif.Proofs.C76Lex
import Verif.Proofs.C48

/-! C83: what the parser takes from a text. -/
namespace Verif.C83
open Lex Parse

/-- What is known of a token of a text of at most `n` bytes; `d` says that the text has
no single quote. -/
def Tok (d : Prop) (n : Nat) : Token → Prop
  | .string s _ => s.length ≤ n ∧ (d → Delimited (str s))
  | .name s => s ≠ [] ∧ s.length ≤ n ∧ Delimited (str s)
  | .int i => i < 18446744073709551616
  | _ => True

/-- What is known of the tokenizer. -/
def LexOk (d : Prop) (n : Nat) (l : Lex) : Prop :=
  (∀ t ∈ l.backlog, Tok d n t) ∧ (∀ c ∈ l.text, c < 256) ∧ l.text.length ≤ n ∧ (d → 39 ∉ l.text)

theorem ofNat_ne {c : Nat} {b : UInt8} (hc : c < 256) (h : c ≠ b.toNat) : UInt8.ofNat c ≠ b := by
  intro e
  have := congrArg UInt8.toNat e
  rw [UInt8.toNat_ofNat'] at this
  omega

theorem delimited_body {s : List Nat} (h : C58.Body 34 s) (hs : ∀ c ∈ s, c < 256) : Delimited (str s) := by
  unfold Delimited
  induction h with
  | nil => rfl
  | @plain c s h1 h2 h3 _ ih =>
    have hc := hs c (by simp)
    have e1 := ofNat_ne (b := 92) hc h3
    have e2 := ofNat_ne (b := 34) hc h1
    have := ih fun c hc => hs c (by simp [hc])
    simp only [str, List.map_cons, C35.delimited, Bool.false_eq_true, if_false]
    rw [if_neg e1, if_neg e2]
    exact this
  | @escaped c s h1 _ ih =>
    have := ih fun c hc => hs c (by simp [hc])
    simp only [str, List.map_cons, C35.delimited, Bool.false_eq_true, if_false]
    rw [if_pos (by rfl)]
    simpa [C35.delimited, str] using this

theorem delimited_plain {s : Bytes} (h : ∀ b ∈ s, b ≠ 92 ∧ b ≠ 34) : Delimited s := by
  unfold Delimited
  induction s with
  | nil => rfl
  | cons b s ih =>
    have hb := h b (by simp)
    simp only [C35.delimited, Bool.false_eq_true, if_false]
    rw [if_neg hb.1, if_neg hb.2]
    exact ih fun c hc => h c (by simp [hc])

theorem delimited_name {s : List Nat} (h : ∀ d ∈ s, isAlpha d = true ∨ isDigit d = true ∨ d = 95 ∨ d = 46 ∨ d = 36) :
    Delimited (str s) := by
  apply delimited_plain
  intro b hb
  obtain ⟨c, hc, rfl⟩ := List.mem_map.1 hb
  have : c < 256 ∧ c ≠ 92 ∧ c ≠ 34 := by
    rcases h c hc with h | h | h
    · simp [isAlpha] at h; omega
    · simp [isDigit] at h; omega
    · omega
  exact ⟨ofNat_ne (b := 92) this.1 this.2.1, ofNat_ne (b := 34) this.1 this.2.2⟩

theorem lexOk_suffix {d : Prop} {n : Nat} {s t : List Nat} {kw : Bool} (hs : t <:+ s) (h : ∀ c ∈ s, c < 256) (hl : s.length ≤ n)
    (hd : d → 39 ∉ s) : LexOk d n ⟨t, kw, []⟩ :=
  ⟨by simp, fun c hc => h c (hs.subset hc), Nat.le_trans hs.length_le hl, fun e hm => hd e (hs.subset hm)⟩

theorem wrapU64_lt (i : Int) : wrapU64 i < 18446744073709551616 := by unfold wrapU64; omega

theorem number_lt (s : List Nat) : ∀ v m r, v < 18446744073709551616 → Lex.number s v = .ok (some (m, r)) → m < 18446744073709551616 := by
  induction s with
  | nil => intro v m r h e; cases e; exact h
  | cons c cs ih =>
    intro v m r h e
    simp only [Lex.number] at e
    split at e
    · cases e
    · split at e
      · cases e
      · split at e
        · exact ih _ _ r (wrapU64_lt _) e
        · cases e; exact h

theorem push_ok {d : Prop} {n : Nat} {l l' : Lex} {t : Token} (h : LexOk d n l) (ht : Tok d n t) (e : push l t = .ok l') : LexOk d n l' := by
  unfold push at e
  split at e
  · cases e
    refine ⟨?_, h.2⟩
    intro u hu
    rcases List.mem_cons.1 hu with rfl | hu
    · exact ht
    · exact h.1 u hu
  · cases e

theorem nextF_tok {d : Prop} {n : Nat} (fuel : Nat) : ∀ (l : Lex) t l', LexOk d n l → nextF fuel l = .ok (t, l') → Tok d n t ∧ LexOk d n l' := by
  induction fuel with
  | zero => intro l t l' _ e; cases e
  | succ fuel ih =>
    rintro ⟨text, kw, bs⟩ t l' ⟨hb, h1', h2', h3'⟩ e
    dsimp only at hb h1' h2' h3'
    rw [nextF] at e
    dsimp only at e
    split at e
    · cases e
      exact ⟨hb _ List.mem_cons_self, fun t ht => hb t (List.mem_cons_of_mem _ ht), h1', h2', h3'⟩
    · obtain ⟨r, h1, h2⟩ := Res.bind_eq_ok.1 e
      have hsuf := C76.skip_suffix _ _ _ h1
      have hlt : ∀ c ∈ r, c < 256 := fun c hc => h1' c (hsuf.subset hc)
      have hlen : r.length ≤ n := Nat.le_trans hsuf.length_le h2'
      have hq : d → 39 ∉ r := fun e hm => h3' e (hsuf.subset hm)
      cases r with
      | nil => cases h2; exact ⟨trivial, by simp, by simp, by simp, by simp⟩
      | cons c cs =>
        dsimp only at h2
        have other : ∀ t rest, rest <:+ c :: cs → Tok d n t → Tok d n t ∧ LexOk d n (⟨rest, kw, []⟩ : Lex) :=
          fun t rest hr ht => ⟨ht, lexOk_suffix hr hlt hlen hq⟩
        split at h2
        · cases h2; exact other _ _ (List.suffix_cons ..) trivial
        · split at h2
          · obtain ⟨o, h3, h4⟩ := Res.bind_eq_ok.1 h2
            cases o with
            | none => cases h4
            | some x =>
              obtain ⟨m, rest⟩ := x
              dsimp only at h4
              obtain ⟨⟨t1, l1⟩, h5, h6⟩ := Res.bind_eq_ok.1 h4
              have hj := ih _ _ _ (lexOk_suffix (C76.number_suffix _ _ _ _ h3) hlt hlen hq) h5
              dsimp only at h6
              split at h6
              · cases h6; exact ⟨wrapU64_lt _, hj.2⟩
              · obtain ⟨l2, h7, h8⟩ := Res.bind_eq_ok.1 h6
                cases h8
                exact ⟨number_lt _ _ _ _ (by omega) h3, push_ok hj.2 hj.1 h7⟩
          · split at h2
            · rename_i hal
              obtain ⟨⟨s, rest⟩, h3, h4⟩ := Res.bind_eq_ok.1 h2
              have hs := C76.nameChars_suffix _ _ _ h3
              obtain ⟨e1, e2, _⟩ := C58.nameChars_sound _ _ _ h3
              have hne : s ≠ [] := by
                rintro rfl
                rw [nameChars] at h3
                split at h3
                · obtain ⟨⟨x, y⟩, _, h5⟩ := Res.bind_eq_ok.1 h3
                  cases h5
                · split at h3
                  · cases h3
                  · split at h3
                    · obtain ⟨⟨x, y⟩, _, h5⟩ := Res.bind_eq_ok.1 h3
                      cases h5
                    · rename_i g1 g2 g3
                      simp only [Bool.or_eq_true, beq_iff_eq] at hal g3
                      rcases hal with h | h
                      · exact g3 (Or.inl h)
                      · exact g1 (Or.inl h)
              have hname : Tok d n (.name s) := by
                refine ⟨hne, ?_, delimited_name e2⟩
                have := congrArg List.length e1
                rw [List.length_append] at this
                omega
              dsimp only at h4
              split at h4
              · cases h4; exact other _ _ hs hname
              · split at h4
                · cases h4; exact other _ _ hs trivial
                · cases h4; exact other _ _ hs hname
            · split at h2
              · rename_i hc
                obtain ⟨⟨s, f, rest⟩, h3, h4⟩ := Res.bind_eq_ok.1 h2
                cases h4
                refine other _ _ ((C76.stringChars_suffix _ _ _ _ _ _ _ _ h3).1.trans (List.suffix_cons ..)) ?_
                obtain ⟨b, e1, e2, _, e4⟩ := C58.stringChars_sound hc _ _ _ _ _ _ _ h3
                simp only [List.nil_append] at e2
                subst e2
                have hl2 := congrArg List.length e1
                simp only [List.length_append, List.length_cons] at hl2 hlen
                refine ⟨by show s.length ≤ n; omega, fun hd => ?_⟩
                rcases hc with rfl | rfl
                · refine delimited_body e4 fun c hc => hlt c ?_
                  rw [e1]
                  simp [hc]
                · exact absurd (List.mem_cons_self ..) (hq hd)
              · cases h2

theorem next_tok {d : Prop} {n : Nat} {l : Lex} {t : Token} {l' : Lex} (h : LexOk d n l) (e : next l = .ok (t, l')) :
    Tok d n t ∧ LexOk d n l' := nextF_tok _ l t l' h e

theorem lexIf_tok {d : Prop} {n : Nat} {p : Token → Bool} {l : Lex} {t : Option Token} {l' : Lex} (h : LexOk d n l)
    (e : lexIf p l = .ok (t, l')) : (∀ x, t = some x → Tok d n x ∧ p x = true) ∧ LexOk d n l' := by
  obtain ⟨⟨t1, l1⟩, h1, h2⟩ := Res.bind_eq_ok.1 e
  have hj := next_tok h h1
  dsimp only at h2
  split at h2
  · rename_i hp
    cases h2; exact ⟨by rintro x ⟨⟩; exact ⟨hj.1, hp⟩, hj.2⟩
  · obtain ⟨l2, h7, h8⟩ := Res.bind_eq_ok.1 h2
    cases h8
    exact ⟨by simp, push_ok hj.2 hj.1 h7⟩

theorem lexIfName_tok {d : Prop} {n : Nat} {l : Lex} {t : Option Token} {l' : Lex} (h : LexOk d n l)
    (e : lexIfName l = .ok (t, l')) : (∀ x, t = some x → Tok d n x ∧ ∃ s, x = .name s) ∧ LexOk d n l' := by
  obtain ⟨⟨t1, l1⟩, h1, h2⟩ := Res.bind_eq_ok.1 e
  have hj := lexIf_tok (l := { l with keywords := false }) h h1
  cases h2
  refine ⟨fun x hx => ⟨(hj.1 x hx).1, ?_⟩, hj.2⟩
  have := (hj.1 x hx).2
  cases x <;> simp at this ⊢

/-! ### Parsers -/

/-- Whatever tokens it gets, the parser returns something with `Q`. -/
def Post {α : Type} (d : Prop) (n : Nat) (Q : α → Prop) : Prog α → Prop
  | .ret a => Q a
  | .fail _ => True
  | .next k => ∀ t, Tok d n t → Post d n Q (k t)
  | .lexIf p k => (∀ t, Tok d n t → p t = true → Post d n Q (k (some t))) ∧ Post d n Q (k none)
  | .lexIfName k => (∀ s, Tok d n (.name s) → Post d n Q (k (some (.name s)))) ∧ Post d n Q (k none)

variable {d : Prop} {n : Nat}

theorem Post.bind {α β : Type} {Q : α → Prop} {R : β → Prop} {p : Prog α} {f : α → Prog β} (hp : Post d n Q p)
    (hf : ∀ a, Q a → Post d n R (f a)) : Post d n R (p.bind f) := by
  induction p with
  | ret a => exact hf a hp
  | fail m => trivial
  | next k ih => exact fun t ht => ih t (hp t ht)
  | lexIf p k ih => exact ⟨fun t ht hpt => ih _ (hp.1 t ht hpt), ih _ hp.2⟩
  | lexIfName k ih => exact ⟨fun s hs => ih _ (hp.1 s hs), ih _ hp.2⟩

theorem Post.mono {α : Type} {Q R : α → Prop} {p : Prog α} (hp : Post d n Q p) (h : ∀ a, Q a → R a) : Post d n R p := by
  induction p with
  | ret a => exact h a hp
  | fail m => trivial
  | next k ih => exact fun t ht => ih t (hp t ht)
  | lexIf p k ih => exact ⟨fun t ht hpt => ih _ (hp.1 t ht hpt), ih _ hp.2⟩
  | lexIfName k ih => exact ⟨fun s hs => ih _ (hp.1 s hs), ih _ hp.2⟩

theorem Post.run {α : Type} {Q : α → Prop} {p : Prog α} (hp : Post d n Q p) : ∀ {l : Lex} {a : α} {l' : Lex}, LexOk d n l →
    p.run l = .ok (a, l') → Q a := by
  induction p with
  | ret a => intro l a l' h e; cases e; exact hp
  | fail m => intro l a l' h e; cases e
  | next k ih =>
    intro l a l' h e
    obtain ⟨⟨t, l1⟩, h1, h2⟩ := Res.bind_eq_ok.1 e
    have := next_tok h h1
    exact ih t (hp t this.1) this.2 h2
  | lexIf p k ih =>
    intro l a l' h e
    obtain ⟨⟨t, l1⟩, h1, h2⟩ := Res.bind_eq_ok.1 e
    have := lexIf_tok h h1
    cases t with
    | none => exact ih _ hp.2 this.2 h2
    | some t => exact ih _ (hp.1 t (this.1 t rfl).1 (this.1 t rfl).2) this.2 h2
  | lexIfName k ih =>
    intro l a l' h e
    obtain ⟨⟨t, l1⟩, h1, h2⟩ := Res.bind_eq_ok.1 e
    have := lexIfName_tok h h1
    cases t with
    | none => exact ih _ hp.2 this.2 h2
    | some t =>
      obtain ⟨h3, s, rfl⟩ := this.1 t rfl
      exact ih _ (hp.1 s h3) this.2 h2

theorem post_true {α : Type} (p : Prog α) : Post d n (fun _ => True) p := by
  induction p with
  | ret a => trivial
  | fail m => trivial
  | next k ih => exact fun t _ => ih t
  | lexIf p k ih => exact ⟨fun t _ _ => ih _, ih _⟩
  | lexIfName k ih => exact ⟨fun s _ => ih _, ih _⟩

/-- A string that the file can hold. -/
def Short (s : Bytes) : Prop := s.length + 5 < 2147483648
def Sound (s : Bytes) : Prop := Short s ∧ Delimited s
/-- A string that it can hold unless there is a single quote in the text. -/
def Half (d : Prop) (s : Bytes) : Prop := Short s ∧ (d → Delimited s)

theorem Sound.half {s : Bytes} (h : Sound s) : Half d s := ⟨h.1, fun _ => h.2⟩
theorem sound_nil : Sound [] := ⟨by simp [Short], rfl⟩

theorem post_name (hn : n + 5 < 2147483648) : Post d n (fun s => s ≠ [] ∧ Sound (str s)) Parse.name := by
  refine ⟨fun t ht hp => ?_, trivial⟩
  cases t <;> try trivial
  exact ⟨ht.1, by simp [Short, str]; have := ht.2.1; omega, ht.2.2⟩

theorem post_string (hn : n + 5 < 2147483648) : Post d n (fun s => Half d (str s)) Parse.string := by
  refine ⟨fun t ht hp => ?_, trivial⟩
  cases t <;> try trivial
  exact ⟨by simp [Short, str]; have := ht.1; omega, ht.2⟩

theorem post_kw (s : String) : Post d n (fun _ => True) (kw s) := post_true _

/-- A value of an option. -/
def ValOk (d : Prop) : Parse.Val → Prop
  | .string s => Half d (str s)
  | .int i => -9223372036854775808 ≤ i ∧ i < 9223372036854775808
  | .bool _ => True

theorem post_value (hn : n + 5 < 2147483648) (k : Kind) : Post d n (ValOk d) (value k) := by
  cases k with
  | string => exact (post_string hn).bind fun s hs => hs
  | int =>
    refine (post_true _).bind fun i _ => ?_
    show _ ∧ _
    unfold toS64 wrapS64
    omega
  | bool =>
    refine (post_true _).bind fun b _ => ?_
    cases b
    · exact (post_true _).bind fun _ _ => trivial
    · trivial

theorem post_loop {σ : Type} (hn : n + 5 < 2147483648) (table : List (Opt σ)) (words : List String) (J : σ → Nat → Prop)
    (hJ : ∀ o ∈ table, ∀ c mask v c', J c mask → ValOk d v → o.set c v = some c' → J c' (mask ||| o.bit)) :
    ∀ (fuel : Nat) (c : σ) (mask : Nat), J c mask → Post d n (fun r => J r.1 r.2) (optionLoop table words fuel c mask) := by
  intro fuel
  induction fuel with
  | zero => intro c mask _; trivial
  | succ fuel ih =>
    intro c mask h
    unfold optionLoop
    intro t ht
    dsimp only
    split
    · trivial
    · split
      · trivial
      · rename_i o ho
        have hm := List.mem_of_find?_eq_some ho
        refine (post_value hn _).bind fun v hv => ?_
        split
        · trivial
        · rename_i c' hc'
          have hnew := hJ o hm c mask v c' h hv hc'
          refine ⟨fun _ _ _ => ih _ _ hnew, ?_⟩
          exact ⟨fun _ _ _ => hnew, trivial⟩

theorem post_options {σ : Type} (hn : n + 5 < 2147483648) (table : List (Opt σ)) (words : List String) (J : σ → Nat → Prop)
    (hJ : ∀ o ∈ table, ∀ c mask v c', J c mask → ValOk d v → o.set c v = some c' → J c' (mask ||| o.bit))
    (fuel : Nat) (c : σ) (h : J c 0) : Post d n (fun r => J r.1 r.2) (options table words fuel c) := by
  unfold options
  refine ⟨fun _ _ _ => ⟨fun _ _ _ => h, ?_⟩, h⟩
  exact post_loop hn table words J hJ fuel c 0 h

/-- A cloud of a command. -/
structure CloudFine (d : Prop) (x : Bytes) (c : CloudConfig) (mask : Nat) : Prop where
  name : c.name = x
  sound : Sound x
  type : Short c.type
  login : Half d c.login
  password : Half d c.password
  url : Half d c.url
  bit0 : mask.testBit 0 = false

theorem bit_or {a b k : Nat} (ha : a.testBit k = false) (hb : b.testBit k = false) : (a ||| b).testBit k = false := by
  rw [Nat.testBit_or, ha, hb]; rfl

theorem post_cloud (hn : n + 5 < 2147483648) (fuel : Nat) (words : List String) {s : Bytes} (hs : Sound s) :
    Post d n (fun r => CloudFine d s r.1 r.2) (options cloudTable words fuel { CloudConfig.allocate with name := s }) := by
  refine post_options hn _ _ (CloudFine d s) ?_ _ _ ?_
  · intro o ho c mask v c' h hv e
    simp only [cloudTable, List.mem_cons, List.not_mem_nil, or_false] at ho
    rcases ho with rfl | rfl | rfl | rfl | rfl | rfl | rfl <;> cases v <;> simp only [reduceCtorEq, Option.some.injEq] at e <;> subst e
    · exact { h with type := hv.1, bit0 := bit_or h.bit0 (by decide) }
    · exact { h with url := hv, bit0 := bit_or h.bit0 (by decide) }
    · exact { h with login := hv, bit0 := bit_or h.bit0 (by decide) }
    · exact { h with password := hv, bit0 := bit_or h.bit0 (by decide) }
    · exact { h with login := hv, bit0 := bit_or h.bit0 (by decide) }
    · exact { h with password := hv, bit0 := bit_or h.bit0 (by decide) }
    · exact { h with bit0 := bit_or h.bit0 (by decide) }
  · exact ⟨rfl, hs, sound_nil.1, sound_nil.half, sound_nil.half, sound_nil.half, by decide⟩

/-- A storage of a command. -/
structure SourceFine (d : Prop) (x : Bytes) (c : Source) (mask : Nat) : Prop where
  name : c.name = x
  sound : Sound x
  legal : C45.Legal c.uuid
  path : Half d c.path
  cloud : Short c.cloud
  compression : Sound c.compression
  encryption : Sound c.encryption
  key : Half d c.encryption_key
  bit1 : mask.testBit 1 = false

theorem fromString_ok {self u : Uuid} {s : List Nat} (h : Uuid.fromString self s = some u) : C45.Legal u := by
  by_cases hl : 36 ≤ s.length
  · have heq : Uuid.fromString self s = Uuid.fromString self (s.take 36) := by
      simp only [Uuid.fromString, List.length_take, List.take_take]
      rw [if_neg (by omega), if_neg (by omega)]
      rfl
    rw [heq] at h
    exact C48.fromString_legal (by simp; omega) h
  · simp only [Uuid.fromString] at h
    rw [if_pos (by omega)] at h
    cases h

theorem sound_of {s : Bytes} (h : s.length + 5 < 2147483648) : Short s := h

theorem compression_sound {x : List Nat} (h : compressionKnown x = true) : Sound (str x) := by
  simp only [compressionKnown, Bool.or_eq_true, beq_iff_eq] at h
  rcases h with ((rfl | rfl) | rfl) | rfl <;> exact ⟨sound_of (by decide +kernel), by unfold Delimited; decide +kernel⟩

theorem encryption_sound {x : Bytes} (h : ¬ encryptionOf x = -1) : Sound x := by
  unfold encryptionOf at h
  split at h
  · rename_i e; subst e; exact sound_nil
  · split at h
    · rename_i e; subst e; exact ⟨sound_of (by decide +kernel), by unfold Delimited; decide +kernel⟩
    · split at h
      · rename_i e; subst e; exact ⟨sound_of (by decide +kernel), by unfold Delimited; decide +kernel⟩
      · exact absurd rfl h

theorem post_source (hn : n + 5 < 2147483648) (fuel : Nat) (words : List String) {s : Bytes} {c : Source}
    (hc : SourceFine d s c 0) : Post d n (fun r => SourceFine d s r.1 r.2) (options storageTable words fuel c) := by
  refine post_options hn _ _ (SourceFine d s) ?_ _ _ hc
  intro o ho c mask v c' h hv e
  simp only [storageTable, List.mem_cons, List.not_mem_nil, or_false] at ho
  rcases ho with rfl | rfl | rfl | rfl | rfl | rfl | rfl | rfl | rfl | rfl | rfl | rfl <;> cases v <;>
    simp only [reduceCtorEq, Option.some.injEq] at e
  · obtain ⟨u, hu, rfl⟩ := Option.map_eq_some_iff.1 e
    exact { h with legal := fromString_ok hu, bit1 := bit_or h.bit1 (by decide) }
  · subst e; exact { h with path := hv, bit1 := bit_or h.bit1 (by decide) }
  · subst e; exact { h with cloud := hv.1, bit1 := bit_or h.bit1 (by decide) }
  · subst e; exact { h with bit1 := bit_or h.bit1 (by decide) }
  · subst e; exact { h with bit1 := bit_or h.bit1 (by decide) }
  · subst e; exact { h with bit1 := bit_or h.bit1 (by decide) }
  · subst e; exact { h with bit1 := bit_or h.bit1 (by decide) }
  · split at e
    · cases e
    · cases e; exact { h with bit1 := bit_or h.bit1 (by decide) }
  · split at e
    · rename_i hk
      cases e; exact { h with compression := compression_sound hk, bit1 := bit_or h.bit1 (by decide) }
    · cases e
  · subst e; exact { h with bit1 := bit_or h.bit1 (by decide) }
  · split at e
    · cases e
    · rename_i hk
      cases e; exact { h with encryption := encryption_sound hk, bit1 := bit_or h.bit1 (by decide) }
  · split at e
    · cases e
    · cases e; exact { h with key := hv, bit1 := bit_or h.bit1 (by decide) }

theorem source_allocate {s : Bytes} (hs : Sound s) {u : Uuid} (hu : C45.Legal u) :
    SourceFine d s { Source.allocate with name := s, uuid := u } 0 :=
  ⟨rfl, hs, hu, sound_nil.half, sound_nil.1, sound_nil, sound_nil, sound_nil.half, by decide⟩

/-- The names of tiers can be held by the file, and so can their number. -/
theorem post_pipeline (hn : n + 5 < 2147483648) : ∀ (fuel : Nat) (l : List TierConfig), (∀ t ∈ l, Sound t.name) →
    Post d n (fun r => (∀ t ∈ r, Sound t.name) ∧ r.length ≤ l.length + fuel) (pipeline_set fuel l) := by
  intro fuel
  induction fuel with
  | zero => intro l _; trivial
  | succ fuel ih =>
    intro l h
    unfold pipeline_set
    refine (post_name hn).bind fun s hs => ?_
    dsimp only
    have snoc : ∀ t : TierConfig, Sound t.name → ∀ u ∈ l ++ [t], Sound u.name := by
      intro t ht u hu
      rcases List.mem_append.1 hu with hu | hu
      · exact h u hu
      · rw [List.mem_singleton.1 hu]; exact ht
    have here : ∀ t : TierConfig, Sound t.name → (∀ u ∈ l ++ [t], Sound u.name) ∧ (l ++ [t]).length ≤ l.length + (fuel + 1) :=
      fun t ht => ⟨snoc t ht, by simp⟩
    have again : ∀ t : TierConfig, Sound t.name →
        Post d n (fun r => (∀ t ∈ r, Sound t.name) ∧ r.length ≤ l.length + (fuel + 1)) (pipeline_set fuel (l ++ [t])) :=
      fun t ht => (ih _ (snoc t ht)).mono fun r hr => ⟨hr.1, by have := hr.2; simp at this; omega⟩
    refine ⟨fun _ _ _ => again _ hs.2, fun _ _ _ => here _ hs.2, fun _ _ _ => ⟨fun _ _ _ => again _ hs.2, ?_⟩, trivial⟩
    refine (post_loop hn tierTable _ (fun c _ => Sound c.name) ?_ _ _ _ hs.2).bind fun r hr => ?_
    · intro o ho c mask v c' h hv e
      simp only [tierTable, List.mem_cons, List.not_mem_nil, or_false] at ho
      rcases ho with rfl | rfl | rfl | rfl <;> cases v <;> simp only [reduceCtorEq, Option.some.injEq] at e <;> subst e <;> exact h
    · exact ⟨fun _ _ _ => again _ hr, fun _ _ _ => here _ hr, trivial⟩

/-- What is known of a command. -/
def Fine (d : Prop) : Cmd → Prop
  | .set _ (.string s _) => Half d (str s)
  | .set _ (.int i) => i < 18446744073709551616
  | .cloudCreate _ c => CloudFine d c.name c 0
  | .cloudRename _ a b => str a ≠ [] ∧ str b ≠ [] ∧ Sound (str b)
  | .cloudAlter _ _ c mask => CloudFine d c.name c mask ∧ mask.testBit 1 = false
  | .storageCreate _ c => SourceFine d c.name c 0
  | .storageRename _ a b => str a ≠ [] ∧ Sound (str b)
  | .storageAlter _ _ c mask => SourceFine d c.name c mask ∧ mask.testBit 0 = false
  | .pipelineAlter l => (∀ t ∈ l, Sound t.name) ∧ l.length < 2147483648
  | _ => True

theorem str_ne {s : List Nat} (h : s ≠ []) : str s ≠ [] := by
  intro e
  exact h (List.map_eq_nil_iff.1 e)

theorem and_bit {a k : Nat} (h : ¬ a &&& 2 ^ k > 0) : a.testBit k = false := by
  cases e : a.testBit k with
  | false => rfl
  | true =>
    exfalso
    apply h
    apply Nat.pos_of_ne_zero
    intro h0
    have := Nat.testBit_and a (2 ^ k) k
    rw [h0, e, Nat.testBit_two_pow_self] at this
    simp at this

theorem post_cloud_create (hn : n + 5 < 2147483648) (fuel : Nat) : Post d n (Fine d) (cloud_create fuel) := by
  refine (post_true _).bind fun b _ => (post_name hn).bind fun s hs => (post_cloud hn fuel _ hs.2).bind fun r hr => ?_
  exact { hr with name := rfl, sound := hr.name ▸ hr.sound, bit0 := by decide }

theorem post_cloud_alter (hn : n + 5 < 2147483648) (fuel : Nat) : Post d n (Fine d) (cloud_alter fuel) := by
  refine (post_true _).bind fun b _ => (post_name hn).bind fun s hs => (post_true _).bind fun c _ => ?_
  cases c with
  | true =>
    exact (post_true _).bind fun _ _ => (post_name hn).bind fun m hm => ⟨str_ne hs.1, str_ne hm.1, hm.2⟩
  | false =>
    refine (post_true _).bind fun c _ => ?_
    cases c with
    | false => trivial
    | true =>
      refine (post_cloud hn fuel _ hs.2).bind fun r hr => ?_
      split
      · trivial
      · rename_i h
        exact ⟨{ hr with name := rfl, sound := hr.name ▸ hr.sound }, and_bit (k := 1) h⟩

theorem post_storage_create (hn : n + 5 < 2147483648) (env : Env) (hu : C45.Legal env.uuid) (hc : Sound env.compression)
    (hk : Sound env.key) (fuel : Nat) : Post d n (Fine d) (storage_create env fuel) := by
  refine (post_true _).bind fun b _ => (post_name hn).bind fun s hs => ?_
  dsimp only
  have h0 := source_allocate (d := d) hs.2 hu
  have h1 : SourceFine d (str s) (if env.compression = [] then { Source.allocate with name := str s, uuid := env.uuid }
      else { Source.allocate with
        name := str s, uuid := env.uuid, compression := env.compression, compression_level := env.compressionLevel }) 0 := by
    split
    · exact h0
    · exact { h0 with compression := hc }
  refine (post_source hn fuel _ h1).bind fun r hr => ?_
  have h2 : SourceFine d r.1.name r.1 0 := { hr with name := rfl, sound := hr.name ▸ hr.sound, bit1 := by decide }
  split
  · exact { h2 with key := hk.half }
  · exact h2

theorem legal_zero : C45.Legal ⟨0, 0⟩ := by unfold C45.Legal; decide

theorem post_storage_alter (hn : n + 5 < 2147483648) (fuel : Nat) : Post d n (Fine d) (storage_alter fuel) := by
  refine (post_true _).bind fun b _ => (post_name hn).bind fun s hs => (post_true _).bind fun c _ => ?_
  cases c with
  | true =>
    exact (post_true _).bind fun _ _ => (post_name hn).bind fun m hm => ⟨str_ne hs.1, hm.2⟩
  | false =>
    refine (post_true _).bind fun c _ => ?_
    cases c with
    | false => trivial
    | true =>
      refine (post_source hn fuel _ (source_allocate hs.2 legal_zero)).bind fun r hr => ?_
      split
      · trivial
      · rename_i h
        exact ⟨{ hr with name := rfl, sound := hr.name ▸ hr.sound }, and_bit (k := 0) h⟩

theorem post_pipeline_alter (hn : n + 5 < 2147483648) (fuel : Nat) (hf : fuel < 2147483648) : Post d n (Fine d) (pipeline_alter fuel) := by
  refine (post_true _).bind fun b _ => ?_
  cases b with
  | true => exact ⟨by simp, by decide⟩
  | false => exact (post_true _).bind fun _ _ => (post_pipeline hn fuel [] (by simp)).bind fun l hl => ⟨hl.1, by have := hl.2; simp at this; omega⟩

theorem post_set (hn : n + 5 < 2147483648) : Post d n (Fine d) set_ := by
  refine ⟨fun s _ => ?_, trivial⟩
  refine (post_true _).bind fun _ _ => fun t ht => ?_
  cases t <;> try trivial
  exact ⟨by simp [Short, str]; have := ht.1; omega, ht.2⟩

/-- Commands of which nothing need be known. -/
def Plain : Cmd → Prop
  | .set .. | .cloudCreate .. | .cloudRename .. | .cloudAlter .. | .storageCreate .. | .storageRename .. | .storageAlter ..
  | .pipelineAlter .. => False
  | _ => True

theorem Plain.fine {c : Cmd} (h : Plain c) : Fine d c := by
  cases c <;> first | trivial | exact h.elim

theorem post_choice {l : List (String × Prog Cmd)} (h : ∀ p ∈ l, Post d n (Fine d) p.2) : Post d n (Fine d) (choice l) := by
  induction l with
  | nil => trivial
  | cons p l ih =>
    obtain ⟨s, p⟩ := p
    unfold choice
    refine (post_true _).bind fun b _ => ?_
    cases b with
    | true => exact h (s, p) (by simp)
    | false => exact ih fun q hq => h q (by simp [hq])

theorem post_show : ∀ (fuel : Nat) (l : List ShowOp), Post d n (Fine d) (show_ fuel l)
  | 0, _ => trivial
  | fuel + 1, l => by
    unfold show_
    intro t _
    refine (post_true _).bind fun r _ => (post_true _).bind fun b _ => ?_
    exact ⟨fun _ _ _ => post_show fuel _, trivial⟩

theorem post_debug : Post d n (Fine d) debug_ := by
  refine (post_true _).bind fun s _ => ?_
  split
  · trivial
  · split
    · trivial
    · split
      · trivial
      · split <;> trivial

theorem post_partition_create (env : Env) : Post d n (Fine d) (partition_create env) := by
  refine (post_true _).bind fun s _ => ⟨fun t _ _ => ?_, trivial⟩
  cases t <;> trivial

theorem post_command (hn : n + 5 < 2147483648) (env : Env) (hu : C45.Legal env.uuid) (hc : Sound env.compression)
    (hk : Sound env.key) (fuel : Nat) (hf : fuel < 2147483648) (t : Token) : Post d n (Fine d) (command env fuel t) := by
  have P : ∀ {α : Type} {p : Prog α} {f : α → Prog Cmd}, (∀ a, Post d n (Fine d) (f a)) → Post d n (Fine d) (p.bind f) :=
    fun h => (post_true _).bind fun a _ => h a
  unfold command
  split
  · exact post_set hn
  · exact post_show _ _
  · exact post_debug
  · trivial
  · trivial
  · trivial
  · apply post_choice
    simp only [List.mem_cons, List.not_mem_nil, or_false, forall_eq_or_imp, forall_eq]
    exact ⟨post_cloud_create hn _, post_storage_create hn env hu hc hk _, post_partition_create env⟩
  · apply post_choice
    simp only [List.mem_cons, List.not_mem_nil, or_false, forall_eq_or_imp, forall_eq]
    exact ⟨P fun _ => P fun _ => trivial, P fun _ => P fun _ => trivial, P fun _ => P fun _ => P fun _ => trivial,
      P fun _ => P fun _ => trivial⟩
  · apply post_choice
    simp only [List.mem_cons, List.not_mem_nil, or_false, forall_eq_or_imp, forall_eq]
    exact ⟨post_cloud_alter hn _, post_storage_alter hn _, post_pipeline_alter hn _ hf⟩
  · apply post_choice
    simp only [List.mem_cons, List.not_mem_nil, or_false, forall_eq_or_imp, forall_eq]
    exact ⟨P fun _ => P fun _ => P fun _ => P fun _ => trivial, P fun _ => P fun _ => P fun _ => trivial⟩
  · apply post_choice
    simp only [List.mem_cons, List.not_mem_nil, or_false, forall_eq_or_imp, forall_eq]
    exact ⟨P fun _ => P fun _ => trivial, P fun _ => trivial⟩
  · apply post_choice
    simp only [List.mem_cons, List.not_mem_nil, or_false, forall_eq_or_imp, forall_eq]
    exact ⟨P fun _ => P fun _ => P fun _ => trivial, P fun _ => P fun _ => trivial⟩
  · apply post_choice
    simp only [List.mem_cons, List.not_mem_nil, or_false, forall_eq_or_imp, forall_eq]
    exact ⟨P fun _ => P fun _ => P fun _ => trivial, P fun _ => P fun _ => trivial⟩
  · trivial
  · trivial

/-- What is known of the command of a text. -/
theorem parse_fine {env : Env} {text : List Nat} {c : Cmd} (ht : ∀ c ∈ text, c < 256) (hn : text.length + 5 < 2147483648)
    (hu : C45.Legal env.uuid) (hc : Sound env.compression) (hk : Sound env.key) (h : parse env text = .ok c) :
    Fine (39 ∉ text) c := by
  unfold parse at h
  obtain ⟨⟨a, l⟩, h1, h2⟩ := Res.bind_eq_ok.1 h
  cases h2
  refine Post.run (d := 39 ∉ text) (n := text.length) (p := parseProg env (text.length + 1)) ?_ (l := Lex.start text) ?_ h1
  · intro t _
    refine (post_command hn env hu hc hk _ (by omega) t).bind fun c hc => ?_
    exact ⟨fun _ _ _ => hc, trivial⟩
  · exact ⟨by simp [Lex.start], ht, Nat.le_refl _, fun e => e⟩

end Verif.C83
