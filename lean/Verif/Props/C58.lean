import Verif.Proofs.ParseTop

/-! C58: a command is understood as written. -/
namespace Verif.C58
open Lex Parse

/-- The parser takes a text as a command exactly if the text is made of items that
are this command in the grammar as it is in the code.  There is no condition on
the text, the settings or the command. -/
theorem C58_code {env : Env} {text : List Nat} {cmd : Cmd} :
    parse env text = .ok cmd ↔ ∃ items, Text items text ∧ Says code env cmd items := parse_code

/-- A text has one reading as items, whatever is in it. -/
theorem C58_one_reading {l l' : List Item} {text : List Nat} (h : Text l text) (h' : Text l' text) : l = l' :=
  text_unique text.length l l' text (Nat.le_refl _) h h'

/-- Partial: the grammar of the comments, for plain commands.  Missing: numbers of
2^63 or more as options of a storage or tier, and `()` in the pipeline (both false,
below). -/
theorem C58_partial {env : Env} {text : List Nat} {cmd : Cmd} {items : List Item} (ht : Text items text) (hp : Plain items) :
    parse env text = .ok cmd ↔ Says documented env cmd items := by
  rw [parse_code]
  constructor
  · rintro ⟨l, h1, h2⟩
    have := C58_one_reading h1 ht
    subst this
    exact says_dialect h2 hp
  · intro h
    exact ⟨items, ht, says_dialect h hp⟩

/-- What is not made of items at all is refused, or worse. -/
theorem C58_refused {env : Env} {text : List Nat} (h : ∀ items, ¬ Text items text) (cmd : Cmd) : parse env text ≠ .ok cmd :=
  fun e => by
    obtain ⟨items, h1, _⟩ := parse_code.1 e
    exact h items h1

/-- The grammar is not ambiguous. -/
theorem C58_one_command {env : Env} {cmd cmd' : Cmd} {items : List Item} (h : Says code env cmd items)
    (h' : Says code env cmd' items) : cmd = cmd' := by
  have h1 := says_complete h (Nat.lt_succ_self _)
  rw [says_complete h' (Nat.lt_succ_self _)] at h1
  simp only [Option.some.injEq, Prod.mk.injEq] at h1
  exact h1.1.symm

/-- Partial: a text without four integers in a row and without bytes of 128 or
more outside strings and comments is understood or refused with a message.  Missing: what is missing in C53. -/
theorem C58_safe_partial {env : Env} {text : List Nat} (h : C53.Calm text) :
    (∀ w, parse env text ≠ .abort w) ∧ ∀ w, parse env text ≠ .ub w := parse_safe h

/-! ### Where the code departs from its comments -/

/-- Settings for the examples. -/
def env0 : Env := ⟨1000, [], 0, ⟨1, 2⟩, []⟩

private def item (s : String) : Item := .word (bytes s)

private theorem text_alter (s : List Nat) (l : List Item) (h : Text l s) (hs : C47.EndsWord s) :
    Text (item "alter" :: item "pipeline" :: item "set" :: item "hot" :: l) (bytes "alter pipeline set hot" ++ s) := by
  have e : bytes "alter pipeline set hot" ++ s =
    [] ++ bytes "alter" ++ ([32] ++ bytes "pipeline" ++ ([32] ++ bytes "set" ++ ([32] ++ bytes "hot" ++ s))) := by
    have : bytes "alter pipeline set hot" = bytes "alter" ++ ([32] ++ bytes "pipeline" ++ ([32] ++ bytes "set" ++ ([32] ++ bytes "hot"))) := by
      decide +kernel
    rw [this]
    simp
  rw [e]
  have ends : ∀ w r, C47.EndsWord ([32] ++ w ++ r) := by
    intro w r c r' e
    simp only [List.cons_append, List.nil_append, List.cons.injEq] at e
    rw [← e.1]
    decide
  have g : Gap [32] := .space (Or.inl rfl) .nil
  have w : ∀ n ∈ ["alter", "pipeline", "set", "hot"], IsWord (bytes n) := by
    have : ∀ n ∈ ["alter", "pipeline", "set", "hot"], ∃ c s, bytes n = c :: s ∧ isAlpha c = true ∧ s.all isAlpha = true := by
      intro n hn
      simp only [List.mem_cons, List.not_mem_nil, or_false] at hn
      rcases hn with rfl | rfl | rfl | rfl
      · exact ⟨97, bytes "lter", by decide +kernel⟩
      · exact ⟨112, bytes "ipeline", by decide +kernel⟩
      · exact ⟨115, bytes "et", by decide +kernel⟩
      · exact ⟨104, bytes "ot", by decide +kernel⟩
    intro n hn
    obtain ⟨c, s, e, h1, h2⟩ := this n hn
    rw [e]
    exact ⟨Or.inl h1, fun d hd => Or.inl (List.all_eq_true.1 h2 d hd)⟩
  exact .word .nil (w _ (by simp)) (ends _ _) (.word g (w _ (by simp)) (ends _ _) (.word g (w _ (by simp)) (ends _ _) (.word g (w _ (by simp)) hs h)))

private theorem kw_item (n : String) (h : (bytes n).map lower = bytes n) : Kw n (item n) := ⟨_, rfl, h⟩

private theorem name_hot : Name (bytes "hot") (item "hot") :=
  ⟨rfl, fun h => by rw [reserved_iff] at h; revert h; decide +kernel⟩

/-- The last tier with an empty list of options is refused. -/
theorem C58_empty_refused :
    (∃ items, Text items (bytes "alter pipeline set hot ()") ∧ ∃ cmd, Says documented env0 cmd items) ∧
    parse env0 (bytes "alter pipeline set hot ()") = .err "name expected" := by
  refine ⟨⟨_, text_alter (bytes " ()") [.symbol 40, .symbol 41] ?_ ?_, _,
    .pipelineSet (kw_item _ (by decide +kernel)) (kw_item _ (by decide +kernel)) (kw_item _ (by decide +kernel)) (.lastEmpty rfl name_hot)⟩, by decide +kernel⟩
  · exact .symbol (g := [32]) (.space (Or.inl rfl) .nil) (by unfold IsSymbol; decide)
      (.symbol (g := []) .nil (by unfold IsSymbol; decide) (.nil (.gap .nil)))
  · intro c r e
    have : bytes " ()" = [32, 40, 41] := by decide +kernel
    rw [this, List.cons.injEq] at e
    rw [← e.1]
    decide

/-- Two tiers without a comma are taken if the first has an empty list of options. -/
theorem C58_nocomma_taken :
    parse env0 (bytes "alter pipeline set hot () cold") =
      .ok (.pipelineAlter [{ TierConfig.allocate with name := str (bytes "hot") }, { TierConfig.allocate with name := str (bytes "cold") }]) ∧
    ∀ items cmd, Text items (bytes "alter pipeline set hot () cold") → ¬ Says documented env0 cmd items := by
  refine ⟨by decide +kernel, ?_⟩
  intro items cmd ht hs
  have h2 : Text [item "alter", item "pipeline", item "set", item "hot", .symbol 40, .symbol 41, item "cold"] (bytes "alter pipeline set hot () cold") := by
    have e : bytes "alter pipeline set hot () cold" = bytes "alter pipeline set hot" ++ bytes " () cold" := by decide +kernel
    rw [e]
    refine text_alter _ _ ?_ ?_
    · refine .symbol (g := [32]) (c := 40) (rest := bytes ") cold") (.space (Or.inl rfl) .nil) (by unfold IsSymbol; decide)
        (.symbol (g := []) (c := 41) (rest := bytes " cold") .nil (by unfold IsSymbol; decide)
        (.word (g := [32]) (s := bytes "cold") (rest := []) (.space (Or.inl rfl) .nil) ?_ (fun c r e => by simp at e) (.nil (.gap .nil))))
      have : bytes "cold" = 99 :: bytes "old" := by decide +kernel
      rw [this]
      refine ⟨by decide, fun d hd => Or.inl ?_⟩
      have h : (bytes "old").all isAlpha = true := by decide +kernel
      exact List.all_eq_true.1 h d hd
    · intro c r e
      have : bytes " () cold" = 32 :: bytes "() cold" := by decide +kernel
      rw [this, List.cons.injEq] at e
      rw [← e.1]
      decide
  have := C58_one_reading ht h2
  subst this
  generalize e : [item "alter", item "pipeline", item "set", item "hot", .symbol 40, .symbol 41, item "cold"] = l at hs
  have nk : ∀ n m, Kw n (item m) → ¬ bytes n ≠ (bytes m).map lower := by
    rintro n m ⟨s, e1, e2⟩ h
    simp only [item, Item.word.injEq] at e1
    rw [← e1] at e2
    exact h e2.symm
  have ft : ∀ cs, ¬ Tiers documented cs [item "hot", .symbol 40, .symbol 41, item "cold"] := by
    intro cs h
    generalize e : [item "hot", .symbol 40, .symbol 41, item "cold"] = l at h
    cases h with
    | last => simp at e
    | lastOpts _ ho =>
      simp only [List.cons_append, List.cons.injEq, true_and] at e
      cases ho <;> simp at e
    | lastEmpty => simp at e
    | more => simp [item] at e
    | moreOpts _ ho =>
      simp only [List.cons_append, List.cons.injEq, true_and] at e
      cases ho <;> simp at e
    | moreEmpty => simp [item] at e
    | nocomma h => simp [documented] at h
  cases hs
  case pipelineSet h1 h2 h3 h4 =>
    simp only [List.cons.injEq] at e
    obtain ⟨_, _, _, rfl⟩ := e
    exact ft _ h4
  case pipelineReset => simp at e
  case empty => simp at e
  all_goals
    simp only [List.cons_append, List.cons.injEq] at e
    obtain ⟨rfl, e⟩ := e
    first
      | (refine nk _ _ ‹Kw _ (item "alter")› ?_; decide +kernel)
      | (obtain ⟨rfl, e⟩ := e; refine nk _ _ ‹Kw _ (item "pipeline")› ?_; decide +kernel)

/-- A number of 2^63 or more becomes negative. -/
theorem C58_negative :
    parse env0 (bytes "create storage s (region_size 18446744073709551615)") =
      .ok (.storageCreate false { newStorage env0 (bytes "s") with region_size := -1 }) := by decide +kernel

/-- A text that makes an assert fail: without asserts, a store past an array. -/
theorem C58_abort : parse env0 (bytes "1 2 3 4 5") = .abort "lex_push: backlog_size < 4" := by decide +kernel

/-- A text with undefined behaviour. -/
theorem C58_ub : parse env0 [195, 164] = .ub "isspace of a negative char" := by decide +kernel

/-- So the property is false of the code. -/
theorem C58_false : ¬ Full := fun h => (h env0 (bytes "1 2 3 4 5") (by decide +kernel)).2.1 _ C58_abort

/-- False too of texts that are safe. -/
theorem C58_grammar_false : ¬ ∀ env text, C53.Calm text → ∀ cmd,
    (parse env text = .ok cmd ↔ ∃ items, Text items text ∧ Says documented env cmd items) := by
  intro h
  obtain ⟨⟨items, h1, cmd, h2⟩, h3⟩ := C58_empty_refused
  have := (h env0 (bytes "alter pipeline set hot ()") (by decide +kernel) cmd).2 ⟨items, h1, h2⟩
  rw [h3] at this
  simp at this

/-! ### The hypotheses are met -/

/-- Commands of several kinds. -/
example : parse env0 (bytes "CREATE Storage IF not exists hot (path '/a b', refresh_wm 5 mib, sync false) # note") =
      .ok (.storageCreate true { newStorage env0 (bytes "hot") with
        path := str (bytes "/a b")
        refresh_wm := 5242880
        sync := false }) ∧
    parse env0 (bytes "DROP PARTITIONS BETWEEN 10 AND 20 kb ON CLOUD") =
      .ok (.partition { type := .dropRange, min := 10, max := 20000, mask := 8 }) ∧
    parse env0 (bytes "show partition 5 debug, config, wal") =
      .ok (.show [⟨.partition, .int 5, true⟩, ⟨.config, .keyword (.kw "config") (bytes "config"), false⟩,
        ⟨.wal, .keyword (.kw "wal") (bytes "wal"), false⟩]) ∧
    parse env0 (bytes "drop storage storage") = .err "name expected" := by decide +kernel

/-- A reading of a command, and that it is plain. -/
example : ∃ items, Text items (bytes "DROP PARTITIONS BETWEEN 10 AND 20 kb ON CLOUD") ∧ Plain items ∧
    Says documented env0 (.partition { type := .dropRange, min := 10, max := 20000, mask := 8 }) items := by
  obtain ⟨items, h1, h2⟩ := (C58_code (env := env0) (text := bytes "DROP PARTITIONS BETWEEN 10 AND 20 kb ON CLOUD")
    (cmd := .partition { type := .dropRange, min := 10, max := 20000, mask := 8 })).1 (by decide +kernel)
  have hp : Plain items := by
    cases h2 with
    | dropRange h3 h4 h5 h6 =>
      intro a b l e
      simp only [List.cons_append, List.cons.injEq] at e
      obtain ⟨rfl, rfl, _⟩ := e
      obtain ⟨s, rfl, hs⟩ := h4
      have : ∀ n, bytes n ≠ bytes "partitions" → ¬ Kw n (.word s) := by
        rintro n hn ⟨s', e, e'⟩
        cases e
        exact hn (e'.symm.trans hs)
      exact ⟨fun h => by rcases h with h | h <;> exact (this _ (by decide +kernel) h).elim,
        fun h => (this _ (by decide +kernel) h).elim⟩
  exact ⟨items, h1, hp, says_dialect h2 hp⟩

example : C53.Calm (bytes "alter pipeline set hot (size 5 mib, events 6), warm (size 7, events 8), cold (size 9)") := by
  decide +kernel

/-- A text that is no items. -/
example : ∀ items, ¬ Text items [195, 164] := by
  intro items h
  have hs : skip false [195, 164] = .ub "isspace of a negative char" := rfl
  cases items with
  | nil =>
    cases h with
    | nil h => rw [skip_tail h] at hs; simp at hs
  | cons a l =>
    obtain ⟨g, c, r, e, hg, hc, _⟩ := text_first h
    rw [e, skip_gap hg, C47.skip_stop _ _ hc.1 hc.2.1 hc.2.2] at hs
    simp at hs

end Verif.C58
