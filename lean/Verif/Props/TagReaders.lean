import Verif.Proofs.TagReaders
import Verif.Proofs.DecodeRel
import Verif.Spec.Examples

/-!
# C67: readers of one's own for tags

`Spec/TagReaders.lean` says which reader a registry has for a tag after any history of calls.
-/

namespace V8.Props
open V8 V8.Spec

/-! ## Registries -/

/-- **C67.** After any history of calls, `match` of every registry finds the reader that is in effect: the one of the
latest registration for the tag in this registry.  What happens to other registries afterwards makes no difference. -/
theorem C67_registry {F : Type} {builtin : Registry F} (hb : (builtin.map (·.1)).Nodup) (es : List (RegEvent F)) :
    (regRun builtin [] es).length = registriesMade es.reverse ∧
      ∀ (r : Nat) (reg : Registry F), (regRun builtin [] es)[r]? = some reg → ∀ t,
        reg.find t = readerInEffect builtin.find es.reverse r t := by
  have h := regRun_inv hb es [] [] rfl (by simp) (by simp) (by simp [readerInEffect])
  rw [List.append_nil] at h
  exact ⟨h.1, h.2⟩

/-- A registry is given to a TagReader and changed afterwards; a reader for all constants is then replaced for one of
them.  The built-in readers are `0` (for `kNull` and `kDate`). -/
def registryHistory : List (RegEvent Nat) :=
  [.new none, .register 0 [.kUndefined, .kNull] 1, .reader (some 0), .register 0 [.kNull, .kDate] 2, .registerAll 1 0,
   .new (some 0), .register 2 [.kDate] 3, .reader none]

example : ((regRun [(.kNull, 0), (.kDate, 0)] [] (registryHistory.take 4)).map
      (fun reg => [Tag.kUndefined, .kNull, .kDate].map reg.find)) =
    [[some 1, some 2, some 2], [some 1, some 1, some 0]] := by decide +kernel

example : ((regRun [(.kNull, 0), (.kDate, 0)] [] registryHistory).map
      (fun reg => [Tag.kUndefined, .kNull, .kDate].map reg.find)) =
    [[some 1, some 2, some 2], [some 1, some 2, some 2], [some 1, some 2, some 3], [none, some 0, some 0]] := by decide +kernel

/-- **C67.** A TagReader copies the registry it is given: it decodes with the readers that were registered then, whatever
is registered in that registry later. -/
theorem C67_copies {F : Type} {builtin : Registry F} (hb : (builtin.map (·.1)).Nodup) (es later : List (RegEvent F))
    (user : Nat) (hlater : ∀ e ∈ later, (∃ tags f, e = .register user tags f) ∨ ∃ o, e = .registerAll user o)
    (huser : user < (regRun builtin [] es).length) (reg reg' : Registry F)
    (h1 : (regRun builtin [] (es ++ [.reader (some user)]))[(regRun builtin [] es).length]? = some reg)
    (h2 : (regRun builtin [] (es ++ [.reader (some user)] ++ later))[(regRun builtin [] es).length]? = some reg') (t : Tag) :
    reg'.find t = reg.find t ∧ reg.find t = (readerInEffect builtin.find es.reverse user t).or (builtin.find t) := by
  have hlen := (C67_registry hb es).1
  rw [(C67_registry hb _).2 _ _ h1 t, (C67_registry hb _).2 _ _ h2 t]
  have hr : readerInEffect builtin.find (es ++ [RegEvent.reader (some user)]).reverse (regRun builtin [] es).length t =
      (readerInEffect builtin.find es.reverse user t).or (builtin.find t) := by
    simp [readerInEffect, hlen]
  refine ⟨?_, hr⟩
  rw [List.reverse_append]
  generalize es ++ [RegEvent.reader (some user)] = base
  have hl : ∀ e ∈ later.reverse, (∃ tags f, e = RegEvent.register user tags f) ∨ ∃ o, e = RegEvent.registerAll user o :=
    fun e he => hlater e (List.mem_reverse.mp he)
  generalize later.reverse = l at hl
  have hne : (regRun builtin [] es).length ≠ user := by omega
  induction l with
  | nil => rfl
  | cons e l ih =>
    rcases hl e (by simp) with ⟨tags, f, rfl⟩ | ⟨o, rfl⟩
    · simp only [List.cons_append, readerInEffect, hne, false_and, if_false]
      exact ih fun e he => hl e (List.mem_cons_of_mem _ he)
    · simp only [List.cons_append, readerInEffect, hne, false_and, if_false]
      exact ih fun e he => hl e (List.mem_cons_of_mem _ he)

/-! ## Decoding -/

/-- **C67.** Dispatch: a tag is decoded by the reader of one's own, if there is one, else by the built-in one. -/
theorem C67_dispatch (env : DEnv) {user : Registry ReaderFn} (hu : (user.map (·.1)).Nodup) (n : Nat) (t : Tag) :
    decodeWith [registryStep (readerRegistry env user)] (n + 1) t = (do
      tick
      match user.find t with
      | some f => f (decodeWith [registryStep (readerRegistry env user)] n) t
      | none => tagReader env (decodeWith [registryStep (readerRegistry env user)] n) t unhandledTag) := by
  rw [decodeWith_single]
  have : registryStep (readerRegistry env user) (decodeWith [registryStep (readerRegistry env user)] n) t unhandledTag =
      match user.find t with
      | some f => f (decodeWith [registryStep (readerRegistry env user)] n) t
      | none => tagReader env (decodeWith [registryStep (readerRegistry env user)] n) t unhandledTag := by
    cases h : user.find t with
    | some f =>
      show registryStep _ _ _ _ = _
      unfold registryStep
      rw [registry_find hu, h, Option.some_or]
    | none =>
      rw [tagReader_registry]
      unfold registryStep
      rw [registry_find hu, h, Option.none_or]
  rw [this]

/-- **C67.** No readers of one's own, or the built-in ones registered again: `loads`. -/
theorem C67_builtin (env : DEnv) {user : Registry ReaderFn} (hu : (user.map (·.1)).Nodup)
    (hsame : ∀ t f, user.find t = some f → (builtinReaders env).find t = some f) (data : Bytes) (version p : Nat)
    (hh : readHeader data 0 = .ok (version, p)) :
    loadsUsing env user (data.length - p + 1) data = loads env data := by
  unfold loadsUsing loads
  rw [hh]
  have : decodeWith [registryStep (readerRegistry env user)] (data.length - p + 1) = decodeTag env (data.length - p + 1) := by
    unfold decodeTag defaultDecodeSteps
    rw [builtin_step]
    refine decodeWith_registry (fun t => ?_) _
    rw [registry_find hu]
    cases h : user.find t with
    | none => exact Option.none_or
    | some f => rw [hsame t f h, Option.some_or]
  rw [this]

/-- **C67.** Readers of one's own make a difference only where their tags are met: if decoding succeeds with readers that
raise an exception, it gives the same with any readers for these tags, and with none. -/
theorem C67_other_tags (env : DEnv) {tags : List Tag} (ht : tags.Nodup) (e : DErr) {user : Registry ReaderFn}
    (hu : (user.map (·.1)).Nodup) (hsub : ∀ t ∈ user.map (·.1), t ∈ tags) (depth : Nat) (data : Bytes) (r : Val × DS)
    (h : loadsUsing env (raising tags e) depth data = .ok r) : loadsUsing env user depth data = .ok r := by
  unfold loadsUsing at h ⊢
  split at h
  · cases h
  · refine RunsTo.decodeNext (fun t => RunsTo.dispatch (env := env) (fun t => ?_) depth t) _ _ _ h
    rw [registry_find hu]
    by_cases hm : t ∈ tags
    · left
      intro rec y
      unfold registryStep
      rw [registry_find (raising_ok ht e), find_raising, if_pos hm]
      exact RunsTo.fail _ _
    · right
      rw [registry_find (raising_ok ht e), find_raising, if_neg hm, Registry.find_none fun h => hm (hsub t h)]
      exact ⟨Option.none_or, Option.none_or⟩

/-- **C67.** What `loads` can read is read the same with readers for other tags than those `loads` has readers for:
they only add to what can be read.  In particular, a reader for `kArrayBufferView` is not used for a view in any data
that `loads` reads. -/
theorem C67_extension (env : DEnv) {user : Registry ReaderFn} (hu : (user.map (·.1)).Nodup)
    (hnew : ∀ t ∈ user.map (·.1), t ∉ valueTags) (data : Bytes) (r : Val × DS) (version p : Nat)
    (hh : readHeader data 0 = .ok (version, p)) (h : loads env data = .ok r) :
    loadsUsing env user (data.length - p + 1) data = .ok r := by
  rw [← C67_builtin env (user := []) List.nodup_nil (by simp [Registry.find, Dict.get]) data version p hh] at h
  unfold loadsUsing at h ⊢
  rw [hh] at h ⊢
  refine RunsTo.decodeNext (fun t => RunsTo.dispatch (env := env) (fun t => ?_) _ t) _ _ _ h
  rw [registry_find hu]
  by_cases hm : t ∈ valueTags
  · right
    exact ⟨rfl, by rw [Registry.find_none fun h => hnew t h hm, Option.none_or]⟩
  · left
    intro rec y
    show RunsTo (registryStep (builtinReaders env) rec t unhandledTag) y
    rw [← tagReader_registry]
    cases t
    all_goals first
      | exact RunsTo.fail _ _
      | exact absurd (by decide) hm

/-- A view on a buffer, and a reader for views that raises an exception. -/
example : ∃ r, loadsUsing exampleDec (raising [.kArrayBufferView] (.py .assertionError)) 20
    [0xff, 0x0f, 0x42, 0x02, 0x07, 0x08, 0x56, 0x42, 0x00, 0x02, 0x00] = .ok r := by
  obtain ⟨s, h, -⟩ := result_ok (r := loadsUsing exampleDec (raising [.kArrayBufferView] (.py .assertionError)) 20
    [0xff, 0x0f, 0x42, 0x02, 0x07, 0x08, 0x56, 0x42, 0x00, 0x02, 0x00]) (v := .obj 1)
    (h := [.abuf ⟨[7, 8], 2, false⟩, .view (.obj 0) ⟨.uint8, 0, some 2⟩]) (p := 11) (by decide +kernel)
  exact ⟨_, h⟩

/-- A reader for dates that returns the number of milliseconds, and makes no object.  `new Map([["t", new Date(0)]])`. -/
example : result (loadsUsing exampleDec [(.kDate, fun _ _ => do let x ← RM.lift readDouble; return .float x)] 20
      [0xff, 0x0f, 0x3b, 0x22, 0x01, 0x74, 0x44, 0, 0, 0, 0, 0, 0, 0, 0, 0x3a, 0x02]) =
    some (.obj 0, [.jsmap [(.str [0x74], .float 0)]], 17) := by decide +kernel

/-- The hypothesis of `C67_other_tags`: no date is met in `new Map([["t", 1]])`. -/
example : ∃ r, loadsUsing exampleDec (raising [.kDate, .kRegExp] .decode) 20
    [0xff, 0x0f, 0x3b, 0x22, 0x01, 0x74, 0x49, 0x02, 0x3a, 0x02] = .ok r := by
  obtain ⟨s, h, -⟩ := result_ok (r := loadsUsing exampleDec (raising [.kDate, .kRegExp] .decode) 20
    [0xff, 0x0f, 0x3b, 0x22, 0x01, 0x74, 0x49, 0x02, 0x3a, 0x02]) (v := .obj 0)
    (h := [.jsmap [(.str [0x74], .int 1)]]) (p := 10) (by decide +kernel)
  exact ⟨_, h⟩

/-! ## Decode steps -/

/-- **C67.** A decode step before the TagReader makes a difference only where it does not call `next`: if it leaves all
tags but some to the next step, and decoding succeeds with a step that raises an exception for these, then the result is
the same. -/
theorem C67_steps (env : DEnv) (tags : List Tag) (e : DErr) (step : DecStep)
    (hstep : ∀ rec t next, t ∉ tags → step rec t next = next t) (depth : Nat) (data : Bytes) (r : Val × DS)
    (h : loadsAfter env (raisingStep tags e) depth data = .ok r) : loadsAfter env step depth data = .ok r := by
  unfold loadsAfter at h ⊢
  split at h
  · cases h
  · refine RunsTo.decodeNext (fun t => RunsTo.steps (fun t => ?_) depth t) _ _ _ h
    by_cases hm : t ∈ tags
    · left
      intro rec next y
      unfold raisingStep
      rw [if_pos hm]
      exact RunsTo.fail _ _
    · right
      intro rec next
      unfold raisingStep
      rw [if_neg hm]
      exact ⟨rfl, hstep rec t next hm⟩

/-- **C67.** A step that leaves every tag to the next one makes no difference. -/
theorem C67_pass (env : DEnv) (step : DecStep) (hstep : ∀ rec t next, step rec t next = next t) (data : Bytes)
    (version p : Nat) (hh : readHeader data 0 = .ok (version, p)) :
    loadsAfter env step (data.length - p + 1) data = loads env data := by
  unfold loadsAfter loads
  rw [hh]
  have : ∀ n, decodeWith [step, tagReader env] n = decodeTag env n := by
    intro n
    induction n with
    | zero => rfl
    | succ n ih =>
      funext t
      rw [decodeWith_pair, hstep, ih, decodeTag_succ]
  simp only [this]

/-- The hypothesis of `C67_steps`: a step that reads numbers only, and data without a number. -/
example : ∃ r, loadsAfter exampleDec (raisingStep [.kInt32, .kUint32, .kDouble] .decode) 20
    [0xff, 0x0f, 0x3b, 0x22, 0x01, 0x74, 0x54, 0x3a, 0x02] = .ok r := by
  obtain ⟨s, h, -⟩ := result_ok (r := loadsAfter exampleDec (raisingStep [.kInt32, .kUint32, .kDouble] .decode) 20
    [0xff, 0x0f, 0x3b, 0x22, 0x01, 0x74, 0x54, 0x3a, 0x02]) (v := .obj 0)
    (h := [.jsmap [(.str [0x74], .bool true)]]) (p := 9) (by decide +kernel)
  exact ⟨_, h⟩

end V8.Props
