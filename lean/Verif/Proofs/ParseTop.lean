import Verif.Proofs.ParseUnique
import Verif.Proofs.ParseWf
import Verif.Proofs.ParseComplete
import Verif.Proofs.ParseSays

/-! C58: a text against its items. -/
namespace Verif.C58
open Lex Parse

/-- The tokenizer is in a good state where one parser hands over to the next. -/
theorem middle_good {α β : Type} (g : α → Prog β) (p : Prog α) : ∀ (f : Bool) (l : Lex) (b : β) (l' : Lex), Wf (p.bind g) f → Good l →
    (f = true → l.backlog = []) → (p.bind g).run l = .ok (b, l') → ∃ a l1, Good l1 ∧ (g a).run l1 = .ok (b, l') := by
  induction p with
  | ret a => intro f l b l' _ hg _ e; exact ⟨a, l, hg, e⟩
  | fail m => intro f l b l' _ _ _ e; simp [Prog.bind, Prog.run] at e
  | next k ih =>
    intro f l a l' hw hg _ e
    obtain ⟨⟨t, l1⟩, h1, h2⟩ := Res.bind_eq_ok.1 e
    rcases next_sound hg h1 with ⟨rfl, rfl, hat⟩ | ⟨b, rfl, hg1, hi, hat⟩
    · exact ih .eof _ ⟨[], true, []⟩ a l' (hw _) ⟨rfl, .nil⟩ (fun _ => rfl) h2
    · exact ih (token b) _ l1 a l' (hw _) hg1 (fun h => hi (isInt_false h)) h2
  | lexIf p k ih =>
    intro f l a l' hw hg _ e
    obtain ⟨⟨o, l2⟩, h1, h2⟩ := Res.bind_eq_ok.1 e
    obtain ⟨⟨t, l1⟩, h3, h4⟩ := Res.bind_eq_ok.1 h1
    dsimp only at h4 h2
    cases hp : p t with
    | true =>
      rw [hp] at h4
      simp only [if_true, Res.ok.injEq, Prod.mk.injEq] at h4
      obtain ⟨rfl, rfl⟩ := h4
      rcases next_sound hg h3 with ⟨rfl, rfl, hat⟩ | ⟨b, rfl, hg1, hi, hat⟩
      · exact ih (some .eof) _ ⟨[], true, []⟩ a l' (hw.1 _ hp) ⟨rfl, .nil⟩ (fun _ => rfl) h2
      · exact ih (some (token b)) _ l1 a l' (hw.1 _ hp) hg1 (fun h => hi (isInt_false h)) h2
    | false =>
      rw [hp] at h4
      simp only [Bool.false_eq_true, if_false] at h4
      obtain ⟨l3, h5, h6⟩ := Res.bind_eq_ok.1 h4
      simp only [Res.ok.injEq, Prod.mk.injEq] at h6
      obtain ⟨rfl, rfl⟩ := h6
      have := push_ok h5
      subst this
      rcases next_sound hg h3 with ⟨rfl, rfl, hat⟩ | ⟨b, rfl, hg1, hi, hat⟩
      · exact ih none false ⟨[], true, [.eof]⟩ a l' hw.2 ⟨rfl, .eof⟩ (fun h => by simp at h) h2
      · exact ih none false { l1 with backlog := token b :: l1.backlog } a l' hw.2
          ⟨hg1.1, hg1.2.push hi⟩ (fun h => by simp at h) h2
  | lexIfName k ih =>
    intro f l a l' hw hg hf e
    obtain ⟨hw0, hw1, hw2, hw3⟩ := hw
    obtain ⟨t, kw, bs⟩ := l
    have hb : bs = [] := hf hw0
    subst hb
    obtain ⟨hk, hb⟩ := hg
    dsimp only at hk hb
    subst hk
    obtain ⟨⟨o, l3⟩, h1, h2⟩ := Res.bind_eq_ok.1 e
    dsimp only at h2
    obtain ⟨⟨o', l2⟩, h3, h4⟩ := Res.bind_eq_ok.1 h1
    simp only [Res.ok.injEq, Prod.mk.injEq] at h4
    obtain ⟨rfl, rfl⟩ := h4
    obtain ⟨⟨x, l1⟩, h5, h6⟩ := Res.bind_eq_ok.1 h3
    dsimp only at h6
    by_cases hx : ∃ n, x = .int n
    · obtain ⟨n, rfl⟩ := hx
      simp only [Bool.false_eq_true, if_false] at h6
      obtain ⟨l4, h7, h8⟩ := Res.bind_eq_ok.1 h6
      simp only [Res.ok.injEq, Prod.mk.injEq] at h8
      obtain ⟨rfl, rfl⟩ := h8
      have := push_ok h7
      subst this
      exact absurd h2 (refuses_run _ _ n _ rfl hw3 _)
    · have hint : ∀ g s rest, Gap g → C47.IsNumber s → EndsNumber rest → t = g ++ s ++ rest → False := by
        intro g s rest hg hs hr et
        apply hx
        rw [next, nextF_int (l := ⟨t, false, []⟩) rfl et hg hs hr] at h5
        obtain ⟨⟨y, l5⟩, q1, q2⟩ := Res.bind_eq_ok.1 h5
        dsimp only at q2
        split at q2
        · simp only [Res.ok.injEq, Prod.mk.injEq] at q2
          exact ⟨_, q2.1.symm⟩
        · obtain ⟨l6, _, q3⟩ := Res.bind_eq_ok.1 q2
          simp only [Res.ok.injEq, Prod.mk.injEq] at q3
          exact ⟨_, q3.1.symm⟩
      rcases nextF_inv (l := ⟨t, false, []⟩) rfl h5 with ⟨rfl, ht, rfl⟩ | ⟨b, hb1, rfl, el, ht⟩ | ⟨g, s, rest, hg, hs, hr, et⟩
      · simp only [Bool.false_eq_true, if_false] at h6
        obtain ⟨l4, h7, h8⟩ := Res.bind_eq_ok.1 h6
        simp only [Res.ok.injEq, Prod.mk.injEq] at h8
        obtain ⟨rfl, rfl⟩ := h8
        have := push_ok h7
        subst this
        exact ih none false ⟨[], true, [.eof]⟩ a l' hw2 ⟨rfl, .eof⟩ (fun h => by simp at h) h2
      · obtain ⟨t', kw', bs'⟩ := l1
        simp only [Lex.mk.injEq, true_and] at el
        obtain ⟨rfl, rfl⟩ := el
        have other : (o', l2) = (none, ⟨t', false, [token b]⟩) → ∃ a' l1, Good l1 ∧ (g a').run l1 = .ok (a, l') := by
          intro e1
          simp only [Prod.mk.injEq] at e1
          obtain ⟨rfl, rfl⟩ := e1
          exact ih none false ⟨t', true, [token b]⟩ a l' hw2 ⟨rfl, .last⟩ (fun h => by simp at h) h2
        cases b with
        | word s =>
          simp only [tokenK, if_true, Res.ok.injEq, Prod.mk.injEq] at h6
          obtain ⟨rfl, rfl⟩ := h6
          exact ih (some (.name s)) true ⟨t', true, []⟩ a l' (hw1 s) ⟨rfl, .nil⟩ (fun _ => rfl) h2
        | int n => exact absurd rfl (hb1 n)
        | string s =>
          simp only [tokenK, token, Bool.false_eq_true, if_false] at h6
          obtain ⟨l4, h7, h8⟩ := Res.bind_eq_ok.1 h6
          have := push_ok h7
          subst this
          simp only [Res.ok.injEq] at h8
          exact other h8.symm
        | symbol c =>
          simp only [tokenK, token, Bool.false_eq_true, if_false] at h6
          obtain ⟨l4, h7, h8⟩ := Res.bind_eq_ok.1 h6
          have := push_ok h7
          subst this
          simp only [Res.ok.injEq] at h8
          exact other h8.symm
      · exact (hint g s rest hg hs hr et).elim

theorem start_at {items : List Item} {text : List Nat} : At (start text) items ↔ Text items text :=
  ⟨fun h => by obtain ⟨_, h⟩ := h; cases h with | text h => exact h, fun h => ⟨rfl, .text h⟩⟩

theorem parse_code {env : Env} {text : List Nat} {cmd : Cmd} :
    parse env text = .ok cmd ↔ ∃ items, Text items text ∧ Says code env cmd items := by
  constructor
  · intro h
    obtain ⟨⟨c, l'⟩, h1, h2⟩ := Res.bind_eq_ok.1 h
    simp only [Res.ok.injEq] at h2
    subst h2
    have hw := wf_parse env (text.length + 1) false
    have hg : Good (start text) := ⟨rfl, .nil⟩
    obtain ⟨a, l1, g1, h3⟩ := middle_good _ (Prog.next (command env (text.length + 1))) false (start text) c l' hw hg (fun h => by simp at h) h1
    obtain ⟨⟨o, l2⟩, h4, h5⟩ := Res.bind_eq_ok.1 h3
    obtain ⟨⟨t, l3⟩, h6, h7⟩ := Res.bind_eq_ok.1 h4
    dsimp only at h7 h5
    have hl : l' = ⟨[], true, []⟩ := by
      cases ht : isEof t with
      | true =>
        rw [ht] at h7
        simp only [if_true, Res.ok.injEq, Prod.mk.injEq] at h7
        obtain ⟨rfl, rfl⟩ := h7
        simp only [Prog.run, Res.ok.injEq, Prod.mk.injEq] at h5
        obtain ⟨_, rfl⟩ := h5
        rcases next_sound g1 h6 with ⟨rfl, e, _⟩ | ⟨b, rfl, _⟩
        · exact e
        · have := token_ne_eof b
          cases hb : token b <;> simp [hb, isEof] at ht this
      | false =>
        rw [ht] at h7
        simp only [Bool.false_eq_true, if_false] at h7
        obtain ⟨l4, h8, h9⟩ := Res.bind_eq_ok.1 h7
        simp only [Res.ok.injEq, Prod.mk.injEq] at h9
        obtain ⟨rfl, rfl⟩ := h9
        simp [Prog.run] at h5
    obtain ⟨_, hs⟩ := sound _ false (start text) c l' hw hg (fun h => by simp at h) h1
    obtain ⟨items, hi1, hi2⟩ := hs [] (hl ▸ ⟨rfl, .text (.nil (.gap .nil))⟩)
    exact ⟨items, start_at.1 hi1, (says_sound hi2).2⟩
  · rintro ⟨items, ht, hs⟩
    have hlen := text_length ht
    obtain ⟨l', h1, _⟩ := complete (parseProg env (text.length + 1)) false (start text) items cmd [] (wf_parse _ _ _) (start_at.2 ht)
      (fun h => by simp at h) (says_noRun hs) (says_complete hs (by omega))
    rw [parse, h1]
    rfl

/-! ### The two grammars -/

theorem number_dialect {d d' : Dialect} {n : Nat} {i : Int} (hn : n < 9223372036854775808) (h : Number d n i) : Number d' n i := by
  rcases h with h | h
  · exact Or.inl h
  · omega

theorem storage_dialect {d d' : Dialect} {c c' : Source} {s : List Nat} {v : Item} {b : Nat} (hv : Small [v])
    (h : StorageOpt d c s v c' b) : StorageOpt d' c s v c' b := by
  cases h with
  | uuid h => exact .uuid h
  | path => exact .path
  | cloud => exact .cloud
  | drop_local h => exact .drop_local h
  | sync h => exact .sync h
  | crc h => exact .crc h
  | refresh_wm h => exact .refresh_wm (number_dialect (hv _ (by simp)) h)
  | region_size h h0 => exact .region_size (number_dialect (hv _ (by simp)) h) h0
  | compression h => exact .compression h
  | level h => exact .level (number_dialect (hv _ (by simp)) h)
  | encryption h => exact .encryption h
  | encryption_key h => exact .encryption_key h

theorem tier_dialect {d d' : Dialect} {c c' : TierConfig} {s : List Nat} {v : Item} {b : Nat} (hv : Small [v])
    (h : TierOpt d c s v c' b) : TierOpt d' c s v c' b := by
  cases h with
  | partitions h => exact .partitions (number_dialect (hv _ (by simp)) h)
  | size h => exact .size (number_dialect (hv _ (by simp)) h)
  | events h => exact .events (number_dialect (hv _ (by simp)) h)
  | duration h => exact .duration (number_dialect (hv _ (by simp)) h)

theorem opts_dialect {σ : Type} {one one' : σ → List Nat → Item → σ → Nat → Prop}
    (ho : ∀ c s v c' b, Small [v] → one c s v c' b → one' c s v c' b) {c c' : σ} {m m' : Nat} {l : List Item}
    (h : Opts one c m l c' m') : Small l → Opts one' c m l c' m' := by
  induction h with
  | last h => intro hl; exact .last (ho _ _ _ _ _ (fun n hn => hl n (by simp at hn ⊢; exact hn)) h)
  | more h _ ih =>
    intro hl
    refine .more (ho _ _ _ _ _ (fun n hn => hl n ?_) h) (ih fun n hn => hl n (by simp [hn]))
    simp only [List.mem_singleton] at hn
    simp [hn]

theorem options_dialect {σ : Type} {one one' : σ → List Nat → Item → σ → Nat → Prop}
    (ho : ∀ c s v c' b, Small [v] → one c s v c' b → one' c s v c' b) {c c' : σ} {m : Nat} {l : List Item}
    (h : Options one c l c' m) (hl : Small l) : Options one' c l c' m := by
  cases h with
  | none => exact .none
  | empty => exact .empty
  | some h => exact .some (opts_dialect ho h fun n hn => hl n (by simp [hn]))

theorem tiers_dialect {d d' : Dialect} {cs : List TierConfig} {l : List Item} (h : Tiers d cs l) : Small l → NoEmpty l → Tiers d' cs l := by
  induction h with
  | last h => intro _ _; exact .last h
  | lastOpts h ho =>
    intro hs _
    exact .lastOpts h (opts_dialect (fun _ _ _ _ _ => tier_dialect) ho fun n hn => hs n (by simp [hn]))
  | lastEmpty hd h =>
    rename_i s a
    intro _ he
    exact (he [a] [] rfl).elim
  | more h _ ih =>
    rename_i s a cs l _
    intro hs he
    exact .more h (ih (fun n hn => hs n (by simp [hn])) fun l1 l2 e => he (a :: .symbol 44 :: l1) l2 (by rw [e]; rfl))
  | moreOpts h ho _ ih =>
    rename_i s a l c m cs l' _
    intro hs he
    refine .moreOpts h (opts_dialect (fun _ _ _ _ _ => tier_dialect) ho fun n hn => hs n (by simp [hn]))
      (ih (fun n hn => hs n (by simp [hn])) fun l1 l2 e => he (a :: .symbol 40 :: l ++ .symbol 41 :: .symbol 44 :: l1) l2 ?_)
    rw [e]
    simp
  | moreEmpty hd h _ ih =>
    rename_i s a cs l _
    intro _ he
    exact (he [a] (.symbol 44 :: l) rfl).elim
  | nocomma hd h _ ih =>
    rename_i s a cs l _
    intro _ he
    exact (he [a] l rfl).elim

theorem says_dialect {d d' : Dialect} {env : Env} {cmd : Cmd} {l : List Item} (h : Says d env cmd l) (hp : Plain l) :
    Says d' env cmd l := by
  cases h with
  | empty => exact .empty
  | show_ h1 h2 => exact .show_ h1 h2
  | set h1 h2 => exact .set h1 h2
  | setEnd h1 h2 => exact .setEnd h1 h2
  | walCreate h => exact .walCreate h
  | walGc h => exact .walGc h
  | walRead h => exact .walRead h
  | memoryGc h => exact .memoryGc h
  | checkpoint h => exact .checkpoint h
  | service h => exact .service h
  | rebalance h => exact .rebalance h
  | cloudCreate h1 h2 h3 h4 h5 => exact .cloudCreate h1 h2 h3 h4 h5
  | cloudDrop h1 h2 h3 h4 => exact .cloudDrop h1 h2 h3 h4
  | cloudRename h1 h2 h3 h4 h5 h6 => exact .cloudRename h1 h2 h3 h4 h5 h6
  | cloudRenameTo h1 h2 h3 h4 h5 h6 h7 => exact .cloudRenameTo h1 h2 h3 h4 h5 h6 h7
  | cloudAlter h1 h2 h3 h4 h5 h6 h7 => exact .cloudAlter h1 h2 h3 h4 h5 h6 h7
  | storageCreate h1 h2 h3 h4 h5 =>
    refine .storageCreate h1 h2 h3 h4 (options_dialect (fun _ _ _ _ _ => storage_dialect) h5 fun n hn => ?_)
    exact (hp _ _ _ rfl).1 (Or.inl h2) n (by simp [hn])
  | storageDrop h1 h2 h3 h4 => exact .storageDrop h1 h2 h3 h4
  | storageRename h1 h2 h3 h4 h5 h6 => exact .storageRename h1 h2 h3 h4 h5 h6
  | storageRenameTo h1 h2 h3 h4 h5 h6 h7 => exact .storageRenameTo h1 h2 h3 h4 h5 h6 h7
  | storageAlter h1 h2 h3 h4 h5 h6 h7 =>
    refine .storageAlter h1 h2 h3 h4 h5 (options_dialect (fun _ _ _ _ _ => storage_dialect) h6 fun n hn => ?_) h7
    exact (hp _ _ _ rfl).1 (Or.inl h2) n (by simp [hn])
  | pipelineReset h1 h2 h3 => exact .pipelineReset h1 h2 h3
  | pipelineSet h1 h2 h3 h4 =>
    rename_i a b c cs l
    obtain ⟨p1, p2⟩ := hp _ _ _ rfl
    refine .pipelineSet h1 h2 h3 (tiers_dialect h4 (fun n hn => p1 (Or.inr h2) n (by simp [hn])) fun l1 l2 e => p2 h2 (c :: l1) l2 ?_)
    rw [e]
    rfl
  | create h1 h2 => exact .create h1 h2
  | create1 h1 h2 => exact .create1 h1 h2
  | drop h1 h2 h3 h4 => exact .drop h1 h2 h3 h4
  | dropRange h1 h2 h3 h4 => exact .dropRange h1 h2 h3 h4
  | move h1 h2 h3 h4 h5 => exact .move h1 h2 h3 h4 h5
  | moveRange h1 h2 h3 h4 h5 => exact .moveRange h1 h2 h3 h4 h5
  | refresh h1 h2 h3 => exact .refresh h1 h2 h3
  | refreshRange h1 h2 h3 => exact .refreshRange h1 h2 h3
  | download h1 h2 h3 h4 => exact .download h1 h2 h3 h4
  | downloadRange h1 h2 h3 h4 => exact .downloadRange h1 h2 h3 h4
  | upload h1 h2 h3 h4 => exact .upload h1 h2 h3 h4
  | uploadRange h1 h2 h3 h4 => exact .uploadRange h1 h2 h3 h4

theorem run_safe {α : Type} (p : Prog α) : ∀ l, C53.Inv l → C53.Post (p.run l) (fun _ => True) := by
  induction p with
  | ret a => intro l _; exact C53.Post.ok trivial
  | fail m => intro l _; exact C53.Post.err
  | next k ih => intro l h; exact C53.Post.bind (C53.next_post l h) fun r hr => ih _ _ ⟨hr.1, Nat.le_succ_of_le hr.2⟩
  | lexIf p k ih => intro l h; exact C53.Post.bind (C53.lexIf_post p l h) fun r hr => ih _ _ hr
  | lexIfName k ih =>
    intro l h
    refine C53.Post.bind (Q := fun q => C53.Inv q.2) ?_ fun r hr => ih _ _ hr
    exact C53.Post.bind (C53.lexIf_post _ { l with keywords := false } h) fun a ha => C53.Post.ok ha

theorem parse_safe {env : Env} {text : List Nat} (h : C53.Calm text) :
    C53.Safe (parse env text) :=
  (C53.Post.bind (run_safe _ (start text) (C53.inv_start h)) fun r _ => C53.Post.ok (Q := fun _ => True) trivial).1

end Verif.C58
