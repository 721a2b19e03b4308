import Verif.Spec.Traceback
import Verif.Proofs.Keys
import Verif.Props.Accept
import Verif.Props.EncodeGlobal

/-!
# C58: Python exceptions become JavaScript errors
-/

namespace V8.Props
open V8 V8.Spec

theorem formatFrame_eq (f : Frame) : formatFrame f = frameLine f := by
  obtain ⟨n, a, b, c⟩ := f
  unfold formatFrame frameLine formatFrameLocation place
  cases a <;> cases b <;> cases c <;> rfl

theorem pyIsSpace_iff (s : Str) : pyIsSpace s = true ↔ s ≠ [] ∧ Blank s := by
  unfold pyIsSpace Blank
  cases s <;> simp

theorem lstrip_append_spaces (n : Nat) (s : Str) :
    lstripSpaces (List.replicate n 32 ++ s) = lstripSpaces s := by
  unfold lstripSpaces
  induction n with
  | zero => rfl
  | succ n ih => rw [List.replicate_succ, List.cons_append, List.dropWhile_cons]; simpa using ih

theorem blank_append {a b : Str} : Blank (a ++ b) ↔ Blank a ∧ Blank b := by
  unfold Blank
  simp only [List.mem_append]
  exact ⟨fun h => ⟨fun c hc => h c (.inl hc), fun c hc => h c (.inr hc)⟩,
    fun ⟨h1, h2⟩ c hc => hc.elim (h1 c) (h2 c)⟩

theorem blank_spaces (n : Nat) : Blank (List.replicate n 32) := by
  intro c hc
  rw [(List.mem_replicate.1 hc).2]
  decide

theorem blank_dropWhile {s : Str} (h : Blank s) : Blank (s.dropWhile (· == 32)) :=
  fun c hc => h c ((List.dropWhile_suffix _).subset hc)

theorem dropWhile_twice (s : Str) : (s.dropWhile (· == 32)).dropWhile (· == 32) = s.dropWhile (· == 32) := by
  induction s with
  | nil => rfl
  | cons c t ih =>
    rw [List.dropWhile_cons]
    by_cases hc : (c == 32) = true
    · rw [if_pos hc]; exact ih
    · rw [if_neg hc, List.dropWhile_cons, if_neg hc]

/-- One level more. -/
theorem indented_succ (d : Nat) (s : Str) :
    indented (d + 1) s = indented d
      (if pyIsSpace (str "    " ++ s) then lstripSpaces (str "    " ++ s) else str "    " ++ s) := by
  have h4 : str "    " = List.replicate 4 32 := by decide
  by_cases hb : Blank s
  · have : pyIsSpace (str "    " ++ s) = true := by
      rw [pyIsSpace_iff, h4]
      exact ⟨by simp, blank_append.2 ⟨blank_spaces 4, hb⟩⟩
    rw [if_pos this, h4, lstrip_append_spaces]
    unfold indented lstripSpaces
    rw [if_neg (by omega), if_pos hb]
    by_cases hd : d = 0
    · rw [if_pos hd]
    · rw [if_neg hd, if_pos (blank_dropWhile hb), dropWhile_twice]
  · have hn : ¬ Blank (str "    " ++ s) := fun h => hb (blank_append.1 h).2
    have : ¬ pyIsSpace (str "    " ++ s) = true := fun h => hn ((pyIsSpace_iff _).1 h).2
    rw [if_neg this]
    unfold indented
    rw [if_neg (by omega), if_neg hb, if_neg hn]
    by_cases hd : d = 0
    · rw [if_pos hd, hd, h4]
    · rw [if_neg hd, h4, ← List.append_assoc, List.replicate_append_replicate]
      rfl

theorem prefixLines_cons (lp p x : Str) (t ps : List Str) : prefixLines lp (x :: t) (p :: ps) =
    (if pyIsSpace (p ++ x) then lstripSpaces (p ++ x) else p ++ x) :: prefixLines p t ps := rfl

theorem prefixLines_cons_nil (p x : Str) (t : List Str) : prefixLines p (x :: t) [] =
    (if pyIsSpace (p ++ x) then lstripSpaces (p ++ x) else p ++ x) :: prefixLines p t [] := rfl

theorem prefixLines_last (p : Str) (l : List Str) :
    prefixLines p l [] = l.map (fun s => if pyIsSpace (p ++ s) then lstripSpaces (p ++ s) else p ++ s) := by
  induction l with
  | nil => rfl
  | cons x t ih =>
    rw [prefixLines_cons_nil, ih, List.map_cons]

/-- Prefixing with a label, indented further. -/
theorem prefixLines_indented (d : Nat) (label first : Str) (l : List Str) (hl : ¬ Blank label) :
    (prefixLines [] (first :: l) [label, str "    "]).map (indented d) =
      (List.replicate (4 * d) 32 ++ label ++ first) :: l.map (indented (d + 1)) := by
  have hb : ¬ Blank (label ++ first) := fun h => hl (blank_append.1 h).1
  rw [prefixLines_cons, List.map_cons, if_neg (fun h => hb ((pyIsSpace_iff _).1 h).2)]
  congr 1
  · unfold indented
    by_cases hd : d = 0
    · rw [if_pos hd, hd]
      rfl
    · rw [if_neg hd, if_neg hb, List.append_assoc]
  · cases l with
    | nil => rfl
    | cons x t =>
      rw [prefixLines_cons, List.map_cons, List.map_cons, prefixLines_last, List.map_map, ← indented_succ]
      congr 1
      exact List.map_congr_left fun s _ => (indented_succ d s).symm

/-- Every exception that is shown says something (`format_exception_only()` always yields a line). -/
def SaysSomething (l : List Shown) : Prop := ∀ s ∈ l, excHeader s.exc ≠ []

theorem SaysSomething.left {a b : List Shown} (h : SaysSomething (a ++ b)) : SaysSomething a :=
  fun s hs => h s (List.mem_append_left _ hs)
theorem SaysSomething.right {a b : List Shown} (h : SaysSomething (a ++ b)) : SaysSomething b :=
  fun s hs => h s (List.mem_append_right _ hs)

/-- An exception's own lines. -/
def ownLines (d : Nat) (t : Tbe) : List Str :=
  (excHeader t ++ (excFrames t).reverse.map frameLine).map (indented d)

theorem indented_newline (d : Nat) : indented d (str "\n") = str "\n" := by
  unfold indented
  by_cases hd : d = 0
  · rw [if_pos hd]
  · rw [if_neg hd, if_pos (by decide)]
    decide

theorem groupPath_eq : ∀ p, formatGroupPath p = pathText p := by
  intro p
  induction p with
  | nil => rfl
  | cons n p ih =>
    cases p with
    | nil => simp [formatGroupPath, pathText, List.intercalate]
    | cons m p =>
      rw [pathText, ← ih]
      unfold formatGroupPath
      rw [List.map_cons, List.map_cons, List.intercalate_cons_cons]

theorem not_blank_label (s : Str) : ¬ Blank (str "  ↳ " ++ s ++ str ": ") := by
  intro h
  have := (blank_append.1 (blank_append.1 h).1).1
  revert this
  decide

mutual

theorem formatStack_layout : ∀ (t : Tbe) (path : List Nat) (d : Nat), SaysSomething (membersShown t path d) →
    (formatStack t path).map (indented d) = ownLines d t ++ (membersShown t path d).flatMap excLines
  | .mk only stack exceptions context suppress cause, path, d, h => by
    have hs := formatSubs_layout exceptions path 1 d (by simpa [membersShown] using h)
    simp only [formatStack, membersShown, ownLines, excHeader, excFrames, List.map_append, List.map_map]
    rw [hs]
    congr 2
    exact List.map_congr_left fun f _ => by simp [Function.comp, formatFrame_eq]

theorem formatSubs_layout : ∀ (l : List Tbe) (path : List Nat) (i d : Nat), SaysSomething (membersFrom l path i d) →
    (formatSubs l path i).map (indented d) = (membersFrom l path i d).flatMap excLines
  | [], _, _, _, _ => rfl
  | e :: rest, path, i, d, h => by
    simp only [membersFrom] at h
    have h1 := formatStack_layout e (path ++ [i]) (d + 1) (fun s hs => h s (by simp [hs]))
    have h2 := formatRelated_layout e (d + 1) (fun s hs => h s (by simp [hs]))
    have h3 := formatSubs_layout rest path (i + 1) d (fun s hs => h s (by simp [hs]))
    have hne : excHeader e ≠ [] := h ⟨.member (path ++ [i]), d + 1, e⟩ (by simp)
    simp only [formatSubs, membersFrom, List.map_cons, List.map_append, List.flatMap_cons, List.flatMap_append,
      List.cons_append]
    rw [h3, indented_newline]
    cases hf : formatStack e (path ++ [i]) with
    | nil =>
      exfalso
      obtain ⟨only, stack, exceptions, context, suppress, cause⟩ := e
      simp only [formatStack, List.append_eq_nil_iff] at hf
      exact hne hf.1.1
    | cons first l =>
      have hfirst : first = (excHeader e).headD [] := by
        obtain ⟨only, stack, exceptions, context, suppress, cause⟩ := e
        simp only [formatStack] at hf
        simp only [excHeader] at hne ⊢
        cases only with
        | nil => exact absurd rfl hne
        | cons a b => simp only [List.cons_append, List.cons.injEq] at hf; exact hf.1.symm
      rw [hf] at h1
      rw [List.cons_append, prefixLines_indented d _ _ _ (not_blank_label _), List.map_append, h2]
      have ht : l.map (indented (d + 1)) =
          (ownLines (d + 1) e).tail ++ (membersShown e (path ++ [i]) (d + 1)).flatMap excLines := by
        have hne' : ownLines (d + 1) e ≠ [] := by
          unfold ownLines
          cases hh : excHeader e with
          | nil => exact absurd hh hne
          | cons a b => simp
        rw [← List.tail_append_of_ne_nil hne', ← h1]
        rfl
      rw [ht, hfirst, groupPath_eq]
      simp only [excLines, ownLines, Nat.add_sub_cancel, List.append_assoc, List.cons_append]

theorem formatRelated_layout : ∀ (t : Tbe) (d : Nat), SaysSomething (handledShown t d) →
    (formatRelated t).map (indented d) = (handledShown t d).flatMap excLines
  | .mk only stack exceptions context suppress cause, d, h => by
    simp only [formatRelated, handledShown] at h ⊢
    cases suppress with
    | true => rfl
    | false => exact formatContext_layout context d (by simpa using h)

theorem formatContext_layout : ∀ (c : Option Tbe) (d : Nat), SaysSomething (contextShown c d) →
    (formatContext c).map (indented d) = (contextShown c d).flatMap excLines
  | none, _, _ => rfl
  | some c, d, h => by
    simp only [contextShown] at h
    have h1 := formatStack_layout c [] d (fun s hs => h s (by simp [hs]))
    have h2 := formatRelated_layout c d (fun s hs => h s (by simp [hs]))
    simp only [formatContext, contextShown, List.map_append, List.map_cons, List.map_nil, List.flatMap_cons,
      List.flatMap_append, List.cons_append]
    rw [h1, h2]
    simp only [excLines, ownLines, indented_newline, List.append_assoc, List.cons_append, List.nil_append]

end

/-- C58: the stack trace of an exception has the lines of all exceptions to be shown, in order, and nothing
else. -/
theorem C58_layout (t : Tbe) (h : SaysSomething (shown t)) : formatException t [] = (shown t).flatMap excLines := by
  have h0 : ∀ l : List Str, l.map (indented 0) = l := fun l => by
    rw [show indented 0 = id from funext fun s => if_pos rfl, List.map_id]
  have h1 := formatStack_layout t [] 0 (fun s hs => h s (by simp [shown, hs]))
  have h2 := formatRelated_layout t 0 (fun s hs => h s (by simp [shown, hs]))
  rw [h0] at h1 h2
  unfold formatException shown
  rw [h1, h2]
  simp only [List.flatMap_cons, List.flatMap_append, List.cons_append, excLines, List.append_assoc, ownLines]

/-- A frame for the examples. -/
def exampleFrame (n : Nat) : Frame := ⟨str "f", some (str "a.py"), some n, none⟩

/-- An exception with this text, one frame and nothing else. -/
def plainExc (text : String) (n : Nat) : Tbe := .mk [str text] [exampleFrame n] [] none false none

/-- A group of two, raised from a cause while another exception was being handled. -/
def exampleGroup : Tbe :=
  .mk [str "ExceptionGroup: g\n"] [exampleFrame 1, exampleFrame 2]
    [plainExc "ValueError: a\n" 3, plainExc "TypeError: b\n" 4]
    (some (plainExc "KeyError: c\n" 5)) false (some (plainExc "OSError: d\n" 6))

theorem exampleGroup_says : SaysSomething (shown exampleGroup) := by
  simp [SaysSomething, shown, exampleGroup, plainExc, membersShown, membersFrom, handledShown, contextShown, excHeader]

/-- What is shown of it, as one text. -/
example : (formatException exampleGroup []).flatten = str (String.join [
    "ExceptionGroup: g\n",
    "    at f (a.py:2:<unknown>)\n",
    "    at f (a.py:1:<unknown>)\n",
    "\n",
    "  ↳ 1: ValueError: a\n",
    "        at f (a.py:3:<unknown>)\n",
    "\n",
    "  ↳ 2: TypeError: b\n",
    "        at f (a.py:4:<unknown>)\n",
    "\n",
    "The above exception occurred while handling another exception:\n",
    "\n",
    "KeyError: c\n",
    "    at f (a.py:5:<unknown>)\n"]) := by
  decide +kernel

theorem rstrip_prefix (a b : Str) : pyRstrip a <+: pyRstrip (a ++ b) := by
  unfold pyRstrip
  rw [List.reverse_append]
  by_cases h : b.reverse.dropWhile isSpaceChar = []
  · rw [List.dropWhile_append, h]
    exact List.prefix_rfl
  · rw [List.dropWhile_append, if_neg (by simpa using h), List.reverse_append, List.reverse_reverse]
    refine List.IsPrefix.trans ?_ (List.prefix_append _ _)
    have := List.dropWhile_suffix (l := a.reverse) isSpaceChar
    rw [← List.reverse_suffix, List.reverse_reverse]
    exact this

theorem rstrip_no_space (s : Str) : ∀ c ∈ (pyRstrip s).getLast?, isSpaceChar c = false := by
  unfold pyRstrip
  rw [List.getLast?_reverse]
  intro c hc
  have := List.head?_dropWhile_not isSpaceChar s.reverse
  rw [Option.mem_def.1 hc] at this
  simpa using this

theorem rstrip_trimmed (s : Str) : Trimmed s (pyRstrip s) := by
  refine ⟨⟨(s.reverse.takeWhile isSpaceChar).reverse, ?_, fun c hc => ?_⟩, rstrip_no_space s⟩
  · unfold pyRstrip
    rw [← List.reverse_append, List.takeWhile_append_dropWhile, List.reverse_reverse]
  · rw [List.mem_reverse] at hc
    exact (List.all_eq_true.1 (List.all_takeWhile (l := s.reverse) (p := isSpaceChar)) c hc)

/-- C58: the chain of JavaScript errors follows the causes; each has as message the first line of its
exception, and as stack what is shown of the exception, both without white space at the end; the stack begins
with the message. -/
theorem C58_error_chain (t : Tbe) (l : List Tbe) (h : Causes t l) (hs : ∀ e ∈ l, SaysSomething (shown e)) :
    List.Forall₂ (fun e (d : ErrText) => ∃ first m,
      (excHeader e).head? = some first ∧ d.message = some m ∧ Trimmed first m ∧
      Trimmed ((shown e).flatMap excLines).flatten d.stack ∧ m <+: d.stack) l (fromTraceback t) := by
  have one : ∀ e : Tbe, SaysSomething (shown e) →
      ∀ d : ErrText, d = ⟨getMessage e, pyRstrip (formatException e []).flatten⟩ → ∃ first m,
      (excHeader e).head? = some first ∧ d.message = some m ∧ Trimmed first m ∧
      Trimmed ((shown e).flatMap excLines).flatten d.stack ∧ m <+: d.stack := by
    rintro e he d rfl
    rw [← C58_layout e he]
    have hne : excHeader e ≠ [] := he ⟨.self, 0, e⟩ (by simp [shown])
    obtain ⟨only, stack, excs, ctx, sup, cause⟩ := e
    cases only with
    | nil => exact absurd rfl hne
    | cons x rest =>
      refine ⟨x, pyRstrip x, rfl, rfl, rstrip_trimmed x, rstrip_trimmed _, ?_⟩
      simp only [formatException, formatStack, List.cons_append, List.flatten_cons]
      exact rstrip_prefix _ _
  induction h with
  | last =>
    simp only [fromTraceback, fromCause]
    exact .cons (one _ (hs _ (by simp)) _ rfl) .nil
  | more _ ih =>
    simp only [fromTraceback, fromCause]
    exact .cons (one _ (hs _ (by simp)) _ rfl) (ih fun e he => hs e (by simp [he]))

/-- Every exception has such a list of causes. -/
theorem causes_exist : ∀ t : Tbe, ∃ l, Causes t l
  | .mk _ _ _ _ _ none => ⟨_, .last⟩
  | .mk _ _ _ _ _ (some c) => (causes_exist c).elim fun _ h => ⟨_, .more h⟩

example : Causes exampleGroup [exampleGroup, plainExc "OSError: d\n" 6] := .more .last

example : ∀ e ∈ [exampleGroup, plainExc "OSError: d\n" 6], SaysSomething (shown e) := by
  intro e he
  simp only [List.mem_cons, List.not_mem_nil, or_false] at he
  rcases he with rfl | rfl
  · exact exampleGroup_says
  · simp [SaysSomething, shown, plainExc, membersShown, membersFrom, handledShown, contextShown, excHeader]

example : (fromTraceback exampleGroup).map (·.message) = [some (str "ExceptionGroup: g"), some (str "OSError: d")] := by
  decide +kernel

/-- C58: the cause of an exception that was being handled is lost: the result is the same whatever it is. -/
theorem C58_cause_of_context_lost (only : List Str) (stack : List Frame) (excs : List Tbe) (cause : Option Tbe)
    (only' : List Str) (stack' : List Frame) (excs' : List Tbe) (ctx' : Option Tbe) (sup' : Bool) (c c' : Option Tbe) :
    fromTraceback (.mk only stack excs (some (.mk only' stack' excs' ctx' sup' c)) false cause) =
    fromTraceback (.mk only stack excs (some (.mk only' stack' excs' ctx' sup' c')) false cause) := by
  simp only [fromTraceback, getMessage, formatException, formatStack, formatRelated, formatContext]

/-! ### The numbers of group members -/

theorem split_digits {a b x y : Str} (ha : ∀ c ∈ a, c ≠ 46) (hb : ∀ c ∈ b, c ≠ 46)
    (hx : ∀ c ∈ x.head?, c = 46) (hy : ∀ c ∈ y.head?, c = 46) (h : a ++ x = b ++ y) : a = b ∧ x = y := by
  induction a generalizing b with
  | nil =>
    cases b with
    | nil => exact ⟨rfl, h⟩
    | cons c t =>
      simp only [List.nil_append] at h
      rw [h] at hx
      exact absurd (hx c rfl) (hb c List.mem_cons_self)
  | cons c t ih =>
    cases b with
    | nil =>
      simp only [List.nil_append] at h
      rw [← h] at hy
      exact absurd (hy c rfl) (ha c List.mem_cons_self)
    | cons d u =>
      simp only [List.cons_append, List.cons.injEq] at h
      obtain ⟨h1, h2⟩ := ih (fun c hc => ha c (List.mem_cons_of_mem _ hc))
        (fun c hc => hb c (List.mem_cons_of_mem _ hc)) h.2
      exact ⟨by rw [h.1, h1], h2⟩

theorem digits_no_dot (n : Nat) : ∀ c ∈ decDigits n, c ≠ 46 := by
  intro c hc
  have := decDigits_digits n
  unfold isAsciiDecimal at this
  simp only [Bool.and_eq_true, List.all_eq_true] at this
  have hd := this.2 c hc
  rintro rfl
  exact absurd hd (by decide)

theorem groupPath_cons (n : Nat) (p : List Nat) :
    formatGroupPath (n :: p) = decDigits n ++ if p = [] then [] else 46 :: formatGroupPath p := by
  unfold formatGroupPath
  cases p with
  | nil => simp [List.intercalate]
  | cons m p =>
    rw [List.map_cons, List.map_cons, List.intercalate_cons_cons]
    simp only [List.cons_ne_nil, if_false, List.append_assoc]
    rfl

/-- Different numbers are written differently. -/
theorem groupPath_injective : ∀ {p q : List Nat}, formatGroupPath p = formatGroupPath q → p = q := by
  have ne : ∀ n p, formatGroupPath (n :: p) ≠ [] := by
    intro n p h
    rw [groupPath_cons] at h
    have := (List.append_eq_nil_iff.1 h).1
    have hd := decDigits_digits n
    rw [this] at hd
    exact absurd hd (by decide)
  intro p
  induction p with
  | nil =>
    intro q h
    cases q with
    | nil => rfl
    | cons n q => exact absurd h.symm (ne n q)
  | cons n p ih =>
    intro q h
    cases q with
    | nil => exact absurd h (ne n p)
    | cons m q =>
      rw [groupPath_cons, groupPath_cons] at h
      obtain ⟨h1, h2⟩ := split_digits (digits_no_dot n) (digits_no_dot m)
        (by intro c hc; split at hc <;> simp_all) (by intro c hc; split at hc <;> simp_all) h
      have hpq : p = q := by
        by_cases hp : p = []
        · rw [if_pos hp] at h2
          by_cases hq : q = []
          · rw [hp, hq]
          · rw [if_neg hq] at h2; cases h2
        · rw [if_neg hp] at h2
          by_cases hq : q = []
          · rw [if_pos hq] at h2; cases h2
          · rw [if_neg hq] at h2
            exact ih (List.cons.inj h2).2
      rw [decDigits_inj h1, hpq]

/-- No member of a group, however deep, was raised while another exception was being handled. -/
def NoInnerContext (l : List Shown) : Prop := ∀ s ∈ l, s.path.isSome → ∀ d, handledShown s.exc d = []

mutual

theorem membersShown_paths : ∀ (t : Tbe) (path : List Nat) (d : Nat), NoInnerContext (membersShown t path d) →
    (∀ s ∈ membersShown t path d, ∃ j q, s.path = some (path ++ j :: q)) ∧
    ((membersShown t path d).filterMap Shown.path).Nodup
  | .mk _ _ exceptions _ _ _, path, d, h => by
    obtain ⟨h1, h2⟩ := membersFrom_paths exceptions path 1 d (by simpa [membersShown] using h)
    simp only [membersShown]
    exact ⟨fun s hs => let ⟨j, q, _, hp⟩ := h1 s hs; ⟨j, q, hp⟩, h2⟩

theorem membersFrom_paths : ∀ (l : List Tbe) (path : List Nat) (i d : Nat), NoInnerContext (membersFrom l path i d) →
    (∀ s ∈ membersFrom l path i d, ∃ j q, i ≤ j ∧ s.path = some (path ++ j :: q)) ∧
    ((membersFrom l path i d).filterMap Shown.path).Nodup
  | [], _, _, _, _ => by simp [membersFrom]
  | e :: rest, path, i, d, h => by
    simp only [membersFrom] at h
    have hc : handledShown e (d + 1) = [] :=
      h ⟨.member (path ++ [i]), d + 1, e⟩ (by simp) rfl (d + 1)
    obtain ⟨a1, a2⟩ := membersShown_paths e (path ++ [i]) (d + 1) (fun s hs => h s (by simp [hs]))
    obtain ⟨b1, b2⟩ := membersFrom_paths rest path (i + 1) d (fun s hs => h s (by simp [hs]))
    simp only [membersFrom, hc, List.append_nil]
    refine ⟨fun s hs => ?_, ?_⟩
    · rw [List.cons_append, List.mem_cons, List.mem_append] at hs
      rcases hs with rfl | hs | hs
      · exact ⟨i, [], le_refl _, rfl⟩
      · obtain ⟨j, q, hp⟩ := a1 s hs
        exact ⟨i, j :: q, le_refl _, by rw [hp, List.append_assoc]; rfl⟩
      · obtain ⟨j, q, hj, hp⟩ := b1 s hs
        exact ⟨j, q, by omega, hp⟩
    · rw [List.cons_append, List.filterMap_cons_some (f := Shown.path) (b := path ++ [i]) rfl, List.filterMap_append,
        List.nodup_cons, List.nodup_append]
      refine ⟨?_, a2, b2, ?_⟩
      · rw [List.mem_append, List.mem_filterMap, List.mem_filterMap]
        rintro (⟨s, hs, hp⟩ | ⟨s, hs, hp⟩)
        · obtain ⟨j, q, hq⟩ := a1 s hs
          rw [hq, Option.some.injEq] at hp
          have := congrArg List.length hp
          simp at this
        · obtain ⟨j, q, hj, hq⟩ := b1 s hs
          rw [hq, Option.some.injEq, List.append_cancel_left_eq, List.cons.injEq] at hp
          omega
      · intro a ha b hb hab
        obtain ⟨s, hs, hp⟩ := List.mem_filterMap.1 ha
        obtain ⟨s', hs', hp'⟩ := List.mem_filterMap.1 hb
        obtain ⟨j, q, hq⟩ := a1 s hs
        obtain ⟨j', q', hj', hq'⟩ := b1 s' hs'
        rw [hq, Option.some.injEq] at hp
        rw [hq', Option.some.injEq] at hp'
        rw [← hp, ← hp', List.append_assoc, List.append_cancel_left_eq] at hab
        have := (List.cons.inj hab).1
        omega

end

/-- C58: the numbers of the members of an exception group are all different, in the text as well, if no
exception was being handled when a member was raised. -/
theorem C58_labels_differ (t : Tbe) (h : NoInnerContext (membersShown t [] 0)) :
    (((membersShown t [] 0).filterMap Shown.path).map pathText).Nodup :=
  ((membersShown_paths t [] 0 h).2).map fun _ _ e => groupPath_injective (by rw [groupPath_eq, groupPath_eq, e])

example : NoInnerContext (membersShown exampleGroup [] 0) := by
  simp [NoInnerContext, exampleGroup, plainExc, membersShown, membersFrom, handledShown, contextShown]

/-- A group whose second member is a group, and whose first member was raised while handling such a group. -/
def exampleNested : Tbe :=
  .mk [str "ExceptionGroup: g\n"] []
    [.mk [str "ValueError: a\n"] [] []
      (some (.mk [str "ExceptionGroup: h\n"] [] [plainExc "OSError: b\n" 1] none false none)) false none]
    none false none

/-- C58: the numbers can repeat otherwise: those of a group that was being handled start again from 1. -/
theorem C58_labels_repeat :
    ¬ (((membersShown exampleNested [] 0).filterMap Shown.path).map pathText).Nodup := by
  decide +kernel

/-! ### Through dumps and loads -/

theorem errorNodes_get (l : List ErrText) : ∀ (i k : Nat), (errorNodes i l)[k]? =
    (l[k]?).map (fun e => .error (str "Error") e.message (some e.stack)
      (if k + 1 < l.length then .obj (i + k + 1) else .null)) := by
  induction l with
  | nil => intro i k; simp [errorNodes]
  | cons e rest ih =>
    intro i k
    cases k with
    | zero =>
      simp only [errorNodes, List.getElem?_cons_zero, Option.map_some, List.length_cons]
      cases rest <;> simp
    | succ k =>
      simp only [errorNodes, List.getElem?_cons_succ, ih, List.length_cons]
      have : i + 1 + k + 1 = i + (k + 1) + 1 := by omega
      rw [this]
      have : (k + 1 < rest.length) = (k + 1 + 1 < rest.length + 1) := by simp
      simp only [this]

/-- C58: a Python exception passed to `dumps` comes back as a chain of Errors with the messages and stacks of
the exception and its causes.  It is always accepted if its texts have no surrogates (file names from the
operating system can have some). -/
theorem C58_through_dumps (t : Tbe) (env : EEnv) (hh : env.heap = errorNodes 0 (fromTraceback t)) (ht : NoTwins env)
    (denv : DEnv) (hpy : denv.py = env.py)
    (hp : ∀ e ∈ fromTraceback t, PlainText e.stack ∧ ∀ m, e.message = some m → PlainText m) :
    ∃ bytes w ds, dumps env (.obj 0) = .ok bytes ∧ loads denv bytes = .ok (w, ds) ∧
      HoldsErrors ds.heap w (fromTraceback t) := by
  generalize hl : fromTraceback t = l at hh hp
  have hne : l ≠ [] := by
    subst hl
    obtain ⟨_, _, _, _, _, _⟩ := t
    simp [fromTraceback]
  have hget : ∀ i n, env.heap[i]? = some n → ∃ e, l[i]? = some e ∧
      n = Node.error (str "Error") e.message (some e.stack) (if i + 1 < l.length then .obj (i + 1) else .null) := by
    intro i n hi
    rw [hh, errorNodes_get] at hi
    obtain ⟨e, he, rfl⟩ := Option.map_eq_some_iff.1 hi
    exact ⟨e, he, by simp only [Nat.zero_add]⟩
  have one : ∀ {a b : Val}, OneObject env a b → a = b := by
    rintro a b (h | ⟨i, j, rfl, rfl, hij⟩)
    · exact h
    · rw [ht _ _ hij]
  have mem : ∀ {i n c}, env.heap[i]? = some n → c ∈ members n → c = .obj (i + 1) ∧ i + 1 < l.length := by
    intro i n c hi hc
    obtain ⟨e, _, rfl⟩ := hget i n hi
    by_cases hlt : i + 1 < l.length
    · simp only [members, if_pos hlt] at hc
      exact ⟨by simpa using hc, hlt⟩
    · simp [members, if_neg hlt] at hc
  have reach : ∀ {a z : Val}, Reaches env a z → ∀ i : Nat, a = .obj i → i < l.length → ∃ j : Nat, z = .obj j ∧ i ≤ j ∧ j < l.length := by
    intro a z h
    induction h with
    | here h1 =>
      rintro i rfl hi
      exact ⟨i, (one h1).symm, le_refl _, hi⟩
    | inside h1 h2 h3 _ ih =>
      rintro k rfl hk
      have hki := Val.obj.inj (one h1)
      obtain ⟨hc, hlt⟩ := mem h2 h3
      rw [← hki] at hc hlt
      obtain ⟨j, hj, hle, hlt'⟩ := ih (k + 1) hc hlt
      exact ⟨j, hj, Nat.le_of_succ_le hle, hlt'⟩
  have hpos : 0 < l.length := List.length_pos_iff.2 hne
  have hwt : WellTyped env := by
    refine ⟨fun i b v hi => ?_, fun i j hij hb => ?_, fun i o hi => ?_⟩
    · obtain ⟨e, _, h⟩ := hget i _ hi; cases h
    · rw [← ht _ _ hij]; exact hb
    · rcases hi with hi | hi <;> (obtain ⟨e, _, h⟩ := hget i _ hi; cases h)
  have hsz : ArraysSized env := by
    intro i o hi
    rcases hi with hi | hi <;> (obtain ⟨e, _, h⟩ := hget i _ hi; cases h)
  have hw : ∀ u, Reaches env (.obj 0) u → Writable env u := by
    intro u hu
    obtain ⟨j, rfl, _, hlt⟩ := reach hu 0 rfl hpos
    have hj : env.heap[j]? = some (Node.error (str "Error") l[j].message (some l[j].stack)
        (if j + 1 < l.length then .obj (j + 1) else .null)) := by
      rw [hh, errorNodes_get, List.getElem?_eq_getElem hlt]
      simp only [Option.map_some, Nat.zero_add]
    obtain ⟨p1, p2⟩ := hp l[j] (List.getElem_mem hlt)
    exact ⟨_, hj, p2, fun s hs => by cases hs; exact p1⟩
  have hok : ∃ bytes, dumps env (.obj 0) = .ok bytes := by
    rcases C53_accepts hwt hsz hw with h | ⟨_, _, i, _, name, msg, stack, cause, h1, h2, h3⟩
    · exact h
    · exfalso
      obtain ⟨e, _, hn⟩ := hget i _ h1
      injection hn with _ _ _ hcause
      by_cases hlt : i + 1 < l.length
      · rw [if_pos hlt] at hcause
        obtain ⟨j, hj, hle, _⟩ := reach h3 (i + 1) hcause hlt
        rw [← Val.obj.inj hj] at hle
        exact absurd hle (Nat.not_succ_le_self _)
      · rw [if_neg hlt] at hcause
        exact h2 hcause
  obtain ⟨bytes, hd⟩ := hok
  have he : Encodable env := by
    refine ⟨fun i n hi => ?_, fun i j hij _ => by rw [ht _ _ hij]⟩
    obtain ⟨e, _, rfl⟩ := hget i n hi
    trivial
  have hn : NumbersAgree env (.obj 0) := by
    refine .inr ⟨ht, fun x _ => ?_⟩
    have : (Val.obj 0 :: env.heap.flatMap members) = (List.range l.length).map Val.obj := by
      have key : ∀ (l : List ErrText) (i : Nat), l ≠ [] →
          (Val.obj i :: (errorNodes i l).flatMap members) = (List.range' i l.length).map Val.obj := by
        intro l
        induction l with
        | nil => intro i h; exact absurd rfl h
        | cons e rest ih =>
          intro i _
          rw [List.length_cons, List.range'_succ, List.map_cons]
          congr 1
          cases rest with
          | nil => rfl
          | cons e' rest' =>
            rw [← ih (i + 1) (by simp)]
            rfl
      rw [hh, key l 0 hne, List.range_eq_range']
    rw [this]
    exact List.nodup_iff_count_le_one.1 (List.nodup_range.map fun a b h => Val.obj.inj h) x
  obtain ⟨z, P, w, ds, hlo, hg⟩ := C11_round_trip_partial he hpy (.obj 0) hn bytes hd
  refine ⟨bytes, w, ds, hd, hlo, ?_⟩
  have chain : ∀ (k i : Nat), i + k = l.length → ∀ w, 0 < k → SameVal env z P (.obj i) w →
      HoldsErrors ds.heap w (l.drop i) := by
    intro k
    induction k with
    | zero => intro i _ w h _; omega
    | succ k ih =>
      intro i hi w _ hs
      have hlt : i < l.length := by omega
      obtain ⟨j, hij, hP⟩ := hs
      obtain rfl := ht _ _ hij
      obtain ⟨n, hn, hso⟩ := hg.objects _ _ hP
      obtain ⟨e, hle, rfl⟩ := hget _ _ hn
      obtain ⟨j', n', rfl, hj', hc⟩ := hso
      have hel : e = l[i] := by rw [List.getElem?_eq_getElem hlt] at hle; exact (Option.some.inj hle).symm
      rw [List.drop_eq_getElem_cons hlt, ← hel]
      cases n' <;> first | exact hc.elim | skip
      rename_i name' msg' stack' cause'
      obtain ⟨c1, c2, c3, c4⟩ := hc
      refine ⟨j', cause', rfl, ?_, ?_⟩
      · rw [hj', c1, c2, c3]
        rfl
      · by_cases hlt' : i + 1 < l.length
        · rw [if_pos hlt'] at c4
          exact ih (i + 1) (by omega) cause' (by omega) c4
        · rw [if_neg hlt'] at c4
          have : l.drop (i + 1) = [] := List.drop_eq_nil_of_le (by omega)
          rw [this]
          cases cause' <;> first | rfl | exact c4.elim
  exact chain l.length 0 (by omega) w hpos hg.root

example : NoTwins (exampleEnc (errorNodes 0 (fromTraceback exampleGroup))) := exampleEnc_noTwins _

example : ∀ e ∈ fromTraceback exampleGroup, PlainText e.stack ∧ ∀ m, e.message = some m → PlainText m := by
  have key : ∀ e ∈ fromTraceback exampleGroup, PlainText e.stack ∧ PlainText (e.message.getD []) := by
    unfold PlainText
    decide +kernel
  intro e he
  refine ⟨(key e he).1, fun m hm => ?_⟩
  have := (key e he).2
  rwa [hm] at this

end V8.Props
