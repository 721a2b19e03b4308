import Verif.Model.Caches
import Mathlib.Data.List.Basic

/-!
# C74: cached lookups do not depend on what was looked up before
-/

namespace V8.Props

open V8.Caches V8.Versions

variable {κ β ε : Type}

/-- Every entry of the cache is the result for an argument of the set. -/
def CacheOK (f : κ → Except ε β) (args : List κ) (cache : List (κ × β)) : Prop :=
  ∀ e ∈ cache, e.1 ∈ args ∧ f e.1 = .ok e.2

theorem lruCall_ok (eq : κ → κ → Bool) (max : Nat) (f : κ → Except ε β) (args : List κ)
    (hf : ∀ x ∈ args, ∀ y ∈ args, eq x y = true → f x = f y) (cache : List (κ × β)) (hc : CacheOK f args cache)
    (x : κ) (hx : x ∈ args) :
    (lruCall eq max f cache x).1 = f x ∧ CacheOK f args (lruCall eq max f cache x).2 := by
  unfold lruCall
  cases h : cache.find? (fun e => eq e.1 x) with
  | some e =>
    have hm := List.mem_of_find?_eq_some h
    have he : eq e.1 x = true := by simpa using List.find?_some h
    obtain ⟨h1, h2⟩ := hc e hm
    refine ⟨?_, ?_⟩
    · simp only
      rw [← h2, hf e.1 h1 x hx he]
    · intro e' he'
      simp only [List.mem_cons] at he'
      rcases he' with rfl | he'
      · exact hc _ hm
      · exact hc _ (List.mem_of_mem_eraseP he')
  | none =>
    simp only
    cases hfx : f x with
    | error err => exact ⟨rfl, hc⟩
    | ok v =>
      refine ⟨rfl, ?_⟩
      intro e' he'
      have := List.mem_of_mem_take he'
      simp only [List.mem_cons] at this
      rcases this with rfl | h'
      · exact ⟨hx, hfx⟩
      · exact hc _ h'

/-- C74: a cache of any size changes no result of any sequence of calls, if arguments with equal keys have equal
results. -/
theorem C74_transparent (eq : κ → κ → Bool) (max : Nat) (f : κ → Except ε β) (calls : List κ)
    (hf : ∀ x ∈ calls, ∀ y ∈ calls, eq x y = true → f x = f y) :
    lruRun eq max f [] calls = calls.map f := by
  have key : ∀ (xs : List κ) (cache : List (κ × β)), (∀ x ∈ xs, x ∈ calls) → CacheOK f calls cache →
      lruRun eq max f cache xs = xs.map f := by
    intro xs
    induction xs with
    | nil => intro cache _ _; rfl
    | cons x xs ih =>
      intro cache hx hc
      obtain ⟨h1, h2⟩ := lruCall_ok eq max f calls hf cache hc x (hx x (by simp))
      simp only [lruRun, List.map_cons, h1]
      rw [ih _ (fun y hy => hx y (by simp [hy])) h2]
  exact key calls [] (fun x h => h) (by intro e he; cases he)

/-- C74: and only then: two arguments with equal keys and different results get the same result when one is looked
up right after the other. -/
theorem C74_transparent_only (eq : κ → κ → Bool) (max : Nat) (hm : 0 < max) (f : κ → Except ε β) (x y : κ) (v : β)
    (hx : f x = .ok v) (he : eq x y = true) : lruRun eq max f [] [x, y] = [.ok v, .ok v] := by
  obtain ⟨k, rfl⟩ : ∃ k, max = k + 1 := ⟨max - 1, by omega⟩
  simp [lruRun, lruCall, hx, he]

example : lruRun (fun x y : Nat => x % 10 == y % 10) 2 (fun x => (if x < 100 then .ok (x % 5) else .error () : Except Unit Nat)) []
    [3, 13, 100, 8, 21, 33] = [.ok 3, .ok 3, .error (), .ok 3, .ok 1, .ok 3] := by decide

/-- Arguments that are neither floats nor members of other enums and the like. -/
def Ordinary {τ : Type} (calls : List (Arg τ)) : Prop := ∀ n, Arg.num n ∉ calls

/-- Among them equal keys mean equal arguments. -/
theorem ordinary_key {τ : Type} [DecidableEq τ] (code : τ → Nat) (hcode : ∀ t u, code t = code u → t = u)
    (calls : List (Arg τ)) (h : Ordinary calls) (x : Arg τ) (hx : x ∈ calls) (y : Arg τ) (hy : y ∈ calls)
    (he : x.keyEq code y = true) : x = y := by
  cases x with
  | num n => exact absurd hx (h n)
  | int n => cases y <;> simp_all [Arg.keyEq]
  | tag t =>
    cases y with
    | num n => exact absurd hy (h n)
    | tag u =>
      simp only [Arg.keyEq, Arg.eq, Arg.number, decide_eq_true_eq, Int.natCast_inj] at he
      rw [hcode _ _ he]
    | int n => simp [Arg.keyEq] at he
    | fmt d => simp [Arg.keyEq, Arg.eq, Arg.number] at he
    | other k => simp [Arg.keyEq, Arg.eq, Arg.number] at he
  | fmt d =>
    cases y with
    | num n => exact absurd hy (h n)
    | fmt e => simpa [Arg.keyEq, Arg.eq, Arg.number] using he
    | _ => simp [Arg.keyEq, Arg.eq, Arg.number] at he
  | other k =>
    cases y with
    | num n => exact absurd hy (h n)
    | other l => simpa [Arg.keyEq, Arg.eq, Arg.number] using he
    | _ => simp [Arg.keyEq, Arg.eq, Arg.number] at he

theorem ordinary_run {τ : Type} [DecidableEq τ] (code : τ → Nat) (hcode : ∀ t u, code t = code u → t = u)
    (max : Nat) (f : Arg τ → Except ε β) (calls : List (Arg τ)) (h : Ordinary calls) :
    lruRun (Arg.keyEq code) max f [] calls = calls.map f :=
  C74_transparent _ max f calls fun x hx y hy he => by rw [ordinary_key code hcode calls h x hx y hy he]

theorem viewCode_inj (t u : ViewTag) (h : t.code = u.code) : t = u := by
  cases t <;> cases u <;> first | rfl | (revert h; decide)

theorem errCode_inj (t u : ErrTag) (h : t.code = u.code) : t = u := by
  cases t <;> cases u <;> first | rfl | (revert h; decide)

/-- C74: `DataFormat.resolve` finds a format of the data type with the size asked for if the platform has one. -/
theorem C74_resolve (calcsize : Nat → Nat) (dt : DataType) (n : Nat) :
    (∀ d, resolve calcsize dt n = some d →
      d.byteLength = n ∧ d.dataType = dt ∧ d.format ∈ dt.formats ∧ calcsize d.format = n) ∧
    (resolve calcsize dt n = none ↔ ∀ c ∈ dt.formats, calcsize c ≠ n) := by
  constructor
  · intro d h
    unfold resolve at h
    cases hf : dt.formats.find? (fun c => calcsize c == n) with
    | none => rw [hf] at h; cases h
    | some c =>
      rw [hf] at h
      cases h
      exact ⟨rfl, rfl, List.mem_of_find?_eq_some hf, by simpa using List.find?_some hf⟩
  · unfold resolve
    rw [Option.map_eq_none_iff, List.find?_eq_none]
    simp

/-- `struct.calcsize` where `long` has 8 bytes, and where it has 4. -/
def sizes (long : Nat) (c : Nat) : Nat :=
  if c = 108 ∨ c = 76 then long
  else if c = 98 ∨ c = 66 ∨ c = 99 then 1
  else if c = 104 ∨ c = 72 ∨ c = 101 then 2
  else if c = 105 ∨ c = 73 ∨ c = 102 then 4
  else 8

example : resolve (sizes 8) .unsignedInt 8 = some ⟨8, .unsignedInt, 76⟩ ∧
    resolve (sizes 4) .unsignedInt 8 = some ⟨8, .unsignedInt, 81⟩ ∧
    resolve (sizes 4) .float 1 = none := by decide

/-- C74: where the sizes of the C types are the usual ones (`long` can have any size, as it does on Windows), every
class of views has a format, of the size and the data type of its elements. -/
theorem C74_every_class (calcsize : Nat → Nat) (h1 : ∀ c ∈ str "bBc", calcsize c = 1) (h2 : ∀ c ∈ str "hHe", calcsize c = 2)
    (h4 : ∀ c ∈ str "iIf", calcsize c = 4) (h8 : ∀ c ∈ str "qQd", calcsize c = 8) (t : ViewTag) :
    ∃ d, formatOf calcsize t = some d ∧ d.byteLength = t.size ∧ calcsize d.format = t.size ∧ d.dataType = dataTypeOf t := by
  have hn : formatOf calcsize t ≠ none := by
    intro h
    have h := (C74_resolve calcsize (dataTypeOf t) t.size).2.1 h
    cases t <;>
      first
      | exact h _ (by decide +kernel : (98 : Nat) ∈ _) (h1 _ (by decide +kernel))
      | exact h _ (by decide +kernel : (66 : Nat) ∈ _) (h1 _ (by decide +kernel))
      | exact h _ (by decide +kernel : (99 : Nat) ∈ _) (h1 _ (by decide +kernel))
      | exact h _ (by decide +kernel : (104 : Nat) ∈ _) (h2 _ (by decide +kernel))
      | exact h _ (by decide +kernel : (72 : Nat) ∈ _) (h2 _ (by decide +kernel))
      | exact h _ (by decide +kernel : (101 : Nat) ∈ _) (h2 _ (by decide +kernel))
      | exact h _ (by decide +kernel : (105 : Nat) ∈ _) (h4 _ (by decide +kernel))
      | exact h _ (by decide +kernel : (73 : Nat) ∈ _) (h4 _ (by decide +kernel))
      | exact h _ (by decide +kernel : (102 : Nat) ∈ _) (h4 _ (by decide +kernel))
      | exact h _ (by decide +kernel : (113 : Nat) ∈ _) (h8 _ (by decide +kernel))
      | exact h _ (by decide +kernel : (81 : Nat) ∈ _) (h8 _ (by decide +kernel))
      | exact h _ (by decide +kernel : (100 : Nat) ∈ _) (h8 _ (by decide +kernel))
  cases hf : formatOf calcsize t with
  | none => exact absurd hf hn
  | some d =>
    have := (C74_resolve calcsize (dataTypeOf t) t.size).1 d hf
    exact ⟨d, rfl, this.1, this.2.2.2, this.2.1⟩

example : (∀ c ∈ str "bBc", sizes 4 c = 1) ∧ (∀ c ∈ str "hHe", sizes 4 c = 2) ∧ (∀ c ∈ str "iIf", sizes 4 c = 4) ∧
    (∀ c ∈ str "qQd", sizes 4 c = 8) ∧ formatOf (sizes 4) .bigUint64 = some ⟨8, .unsignedInt, 81⟩ := by decide +kernel

/-- Two classes of views with the same format are the same, but for the two kinds of unsigned bytes. -/
theorem format_inj (calcsize : Nat → Nat) (t u : ViewTag) (d : DataFormat) (ht : formatOf calcsize t = some d)
    (hu : formatOf calcsize u = some d) : t = u ∨ (t = .uint8 ∧ u = .uint8Clamped) ∨ (t = .uint8Clamped ∧ u = .uint8) := by
  have h1 := (C74_resolve calcsize (dataTypeOf t) t.size).1 d ht
  have h2 := (C74_resolve calcsize (dataTypeOf u) u.size).1 d hu
  have hs : t.size = u.size := by rw [← h1.1, h2.1]
  have hd : dataTypeOf t = dataTypeOf u := by rw [← h1.2.1, h2.2.1]
  cases t <;> cases u <;> first | exact Or.inl rfl | (revert hs hd; decide)

theorem structMissing_tag (calcsize : Nat → Nat) (t : ViewTag) : structMissing calcsize (.tag t) = .ok (some t) := by
  cases t <;> simp [structMissing, ViewTag.all, hasFormat]

theorem structMissing_fmt (calcsize : Nat → Nat) (t : ViewTag) (d : DataFormat) (h : formatOf calcsize t = some d) :
    structMissing calcsize (.fmt d) = .ok (some (if t = .uint8Clamped then .uint8 else t)) := by
  unfold structMissing
  congr 1
  have hmem : ∀ u : ViewTag, u ∈ ViewTag.all := by intro u; cases u <;> decide
  cases hf : ViewTag.all.find? (fun u => decide (Arg.fmt d = Arg.tag u) || hasFormat calcsize u (.fmt d)) with
  | none =>
    rw [List.find?_eq_none] at hf
    have := hf t (hmem t)
    simp [hasFormat, h] at this
  | some u =>
    have hu : formatOf calcsize u = some d := by
      have := List.find?_some hf
      simpa [hasFormat] using this
    rcases format_inj calcsize t u d h hu with e | ⟨e1, e2⟩ | ⟨e1, e2⟩
    · subst e
      by_cases hc : t = .uint8Clamped
      · subst hc
        exfalso
        have h8 : formatOf calcsize .uint8 = some d := h
        rw [List.find?_eq_some_iff_append] at hf
        obtain ⟨_, as, bs, hab, hno⟩ := hf
        have hin : ViewTag.uint8 ∈ as := by
          have : ViewTag.all = [.int8, .uint8] ++ ViewTag.uint8Clamped :: ViewTag.all.drop 3 := rfl
          rw [this] at hab
          match as, hab with
          | [], hab => cases hab
          | [a], hab => cases hab
          | [a, b], hab => cases hab; simp
          | a :: b :: c :: as, hab => simp at hab; rw [← hab.2.1]; simp
        have := hno _ hin
        simp [hasFormat, h8] at this
      · simp [hc]
    · subst e1 e2
      exfalso
      rw [List.find?_eq_some_iff_append] at hf
      obtain ⟨_, as, bs, hab, hno⟩ := hf
      have hin : ViewTag.uint8 ∈ as := by
        have : ViewTag.all = [.int8, .uint8] ++ ViewTag.uint8Clamped :: ViewTag.all.drop 3 := rfl
        rw [this] at hab
        match as, hab with
        | [], hab => cases hab
        | [a], hab => cases hab
        | [a, b], hab => cases hab; simp
        | a :: b :: c :: as, hab => simp at hab; rw [← hab.2.1]; simp
      have := hno _ hin
      simp [hasFormat, h] at this
    · subst e1 e2
      rfl

/-- C74: on every platform and after any lookups by tags, formats, ints and other objects, a tag finds its own view class,
a format the class with that format (`Uint8Array` for unsigned bytes), and nothing else finds any.
Full statement: after lookups with any arguments; false, see `C74_view_poisoned`. -/
theorem C74_view_formats_partial (calcsize : Nat → Nat) (max : Nat) (calls : List (Arg ViewTag)) (h : Ordinary calls)
    (i : Nat) (a : Arg ViewTag) (r : Except PyExc (Option ViewTag)) (ha : calls[i]? = some a)
    (hr : (lruRun (Arg.keyEq ViewTag.code) max (structMissing calcsize) [] calls)[i]? = some r) :
    (∀ t, a = .tag t → r = .ok (some t)) ∧
    (∀ t d, a = .fmt d → formatOf calcsize t = some d → r = .ok (some (if t = .uint8Clamped then .uint8 else t))) ∧
    ((∀ t, a ≠ .tag t) → (∀ t d, a = .fmt d → formatOf calcsize t ≠ some d) → r = .ok none) := by
  rw [ordinary_run ViewTag.code viewCode_inj max (structMissing calcsize) calls h, List.getElem?_map, ha] at hr
  simp only [Option.map_some, Option.some.injEq] at hr
  subst hr
  refine ⟨fun t e => by rw [e, structMissing_tag], fun t d e hd => by rw [e, structMissing_fmt calcsize t d hd], ?_⟩
  intro h1 h2
  unfold structMissing
  congr 1
  rw [List.find?_eq_none]
  intro t _
  have h1' : (decide (a = Arg.tag t)) = false := by simpa using h1 t
  rw [h1', Bool.false_or]
  unfold hasFormat
  cases a with
  | fmt d => simpa using h2 t d rfl
  | _ => simp

example : lruRun (Arg.keyEq ViewTag.code) 2 (structMissing (sizes 8)) []
    [.tag .uint8Clamped, .fmt ⟨1, .unsignedInt, 66⟩, .int 98, .tag .int8, .fmt ⟨8, .unsignedInt, 76⟩, .fmt ⟨8, .unsignedInt, 81⟩, .other 3] =
    [.ok (some .uint8Clamped), .ok (some .uint8), .ok none, .ok (some .int8), .ok (some .bigUint64), .ok none, .ok none] := by
  decide

/-- C74 fails: after a lookup by a float (or a member of another IntEnum) that equals a tag, which finds nothing, the tag finds
nothing either. -/
theorem C74_view_poisoned :
    lruRun (Arg.keyEq ViewTag.code) 128 (structMissing (sizes 8)) [] [.num 98, .tag .int8] = [.ok none, .ok none] ∧
    lruRun (Arg.keyEq ViewTag.code) 128 (structMissing (sizes 8)) [] [.tag .int8] = [.ok (some .int8)] := by decide

theorem node_codes : ∀ n < 13, nodeMissing (.int (n : Nat)) = .ok ((nodeViewOfCode n).map fun t => (n, t)) := by decide

/-- C74: after any lookups by tags, ints and other objects, a code finds the Node.js format with that code, a tag the first with
that kind of view, and nothing else finds any.  So no sequence of codes read from data has an effect on later lookups.
Full statement: after lookups with any arguments; false, see `C74_node_poisoned`. -/
theorem C74_node_formats_partial (max : Nat) (calls : List (Arg ViewTag)) (h : Ordinary calls)
    (i : Nat) (a : Arg ViewTag) (r : Except PyExc (Option (Nat × ViewTag))) (ha : calls[i]? = some a)
    (hr : (lruRun (Arg.keyEq ViewTag.code) max nodeMissing [] calls)[i]? = some r) :
    (∀ n : Nat, a = .int n → r = .ok ((nodeViewOfCode n).map fun t => (n, t))) ∧
    (∀ t, a = .tag t → r = .ok ((nodeCodeOfView t).map fun n => (n, t))) ∧
    ((∀ t, a ≠ .tag t) → (∀ n : Nat, a ≠ .int n) → r = .ok none) := by
  rw [ordinary_run ViewTag.code viewCode_inj max nodeMissing calls h, List.getElem?_map, ha] at hr
  simp only [Option.map_some, Option.some.injEq] at hr
  subst hr
  have hmem := List.mem_of_getElem? ha
  refine ⟨?_, ?_, ?_⟩
  · intro n e
    subst e
    by_cases hn : n < 13
    · exact node_codes n hn
    · have h1 : nodeViewOfCode n = none := by
        unfold nodeViewOfCode
        rw [Option.map_eq_none_iff, List.find?_eq_none]
        intro e he
        have : e.1 < 13 := by revert e; decide
        simp; omega
      rw [h1]
      unfold nodeMissing
      congr 1
      rw [Option.map_none, List.find?_eq_none]
      intro e he
      have : e.1 < 13 := by revert e; decide
      simp [Arg.eq, Arg.number]; omega
  · intro t e
    subst e
    cases t <;> decide
  · intro h1 h2
    unfold nodeMissing
    congr 1
    rw [List.find?_eq_none]
    intro e _
    cases a with
    | tag t => exact absurd rfl (h1 t)
    | num n => exact absurd hmem (h n)
    | int n =>
      have : ¬ ((e.1 : Int) = n) := by
        intro h'
        exact h2 e.1 (by rw [h'])
      simp [Arg.eq, Arg.number, this]
    | fmt d => simp [Arg.eq, Arg.number]
    | other k => simp [Arg.eq, Arg.number]

example : lruRun (Arg.keyEq ViewTag.code) 128 nodeMissing [] [.int 98, .tag .int8, .int 10, .tag .uint8, .tag .float16] =
    [.ok none, .ok (some (0, .int8)), .ok (some (10, .uint8)), .ok (some (1, .uint8)), .ok none] := by decide

/-- C74 fails: after a lookup by a float that equals a tag, `NodeBufferFormat.supports` denies that tag. -/
theorem C74_node_poisoned :
    lruRun (Arg.keyEq ViewTag.code) 128 nodeMissing [] [.num 66, .tag .uint8] = [.ok none, .ok none] := by decide

/-- C74: after any calls of `for_error_tag` with error tags, ints and other objects, a tag gives the name whose tag it is (`Error`
for the tags of no name).
Full statement: after calls with any arguments; false, see `C74_error_poisoned`. -/
theorem C74_error_names_partial (max : Nat) (calls : List (Arg ErrTag)) (h : Ordinary calls)
    (i : Nat) (t : ErrTag) (r : Except PyExc ErrName) (ha : calls[i]? = some (.tag t))
    (hr : (lruRun (Arg.keyEq ErrTag.code) max errorNameFor [] calls)[i]? = some r) :
    ∃ n, r = .ok n ∧ (n.tag = some t ∨ (n = .error ∧ ∀ m : ErrName, m.tag ≠ some t)) := by
  rw [ordinary_run ErrTag.code errCode_inj max errorNameFor calls h, List.getElem?_map, ha] at hr
  simp only [Option.map_some, Option.some.injEq] at hr
  subst hr
  have hno : ∀ t : ErrTag, (∀ m ∈ ErrName.all, m.tag ≠ some t) → ∀ m : ErrName, m.tag ≠ some t := by
    intro t h m
    exact h m (by cases m <;> decide)
  cases t
  case evalProto => exact ⟨.evalError, by decide, Or.inl rfl⟩
  case rangeProto => exact ⟨.rangeError, by decide, Or.inl rfl⟩
  case referenceProto => exact ⟨.referenceError, by decide, Or.inl rfl⟩
  case syntaxProto => exact ⟨.syntaxError, by decide, Or.inl rfl⟩
  case typeProto => exact ⟨.typeError, by decide, Or.inl rfl⟩
  case uriProto => exact ⟨.uriError, by decide, Or.inl rfl⟩
  all_goals exact ⟨.error, by decide, Or.inr ⟨rfl, hno _ (by decide)⟩⟩

example : lruRun (Arg.keyEq ErrTag.code) 128 errorNameFor [] [.int 69, .tag .evalProto, .tag .stack, .other 1] =
    [.ok .error, .ok .evalError, .ok .error, .ok .error] := by decide

/-- C74 fails: after a call with a member of another IntEnum that equals the tag (`SerializationTag.kRegExp` is 82 as is the tag of
RangeError), a RangeError is read as an Error. -/
theorem C74_error_poisoned :
    lruRun (Arg.keyEq ErrTag.code) 128 errorNameFor [] [.num 82, .tag .rangeProto] = [.ok .error, .ok .error] := by decide

/-- C74: the cache of `supported_by` changes no result, whatever it is called with. -/
theorem C74_supported_by (max : Nat) (calls : List VersionArg) :
    lruRun VersionArg.keyEq max supportedByArg [] calls = calls.map supportedByArg := by
  refine C74_transparent _ max _ calls fun x _ y _ he => ?_
  cases x with
  | text s =>
    cases y <;> simp_all [VersionArg.keyEq]
  | unreleased =>
    cases y <;> simp_all [VersionArg.keyEq]
  | version v =>
    cases y with
    | version w =>
      have hk : v.key = w.key := by simpa [VersionArg.keyEq] using he
      have hc : ∀ (l : List Feature) (fs : Features), collect v l fs = collect w l fs := by
        intro l
        induction l with
        | nil => intro fs; rfl
        | cons f l ih =>
          intro fs
          have : hasFeature f v = hasFeature f w := by
            unfold hasFeature
            cases f.first <;> simp [Version.le, hk]
          simp only [collect, this, ih]
      have hl : v.lt (plain [10, 0, 29]) = w.lt (plain [10, 0, 29]) := by unfold Version.lt; rw [hk]
      simp only [supportedByArg]
      unfold supportedByVersion
      rw [hl, hc]
    | text s => simp [VersionArg.keyEq] at he
    | unreleased => simp [VersionArg.keyEq] at he

example : VersionArg.keyEq (.version { release := [12, 0] }) (.version { release := [12, 0, 0] }) = true ∧
    lruRun VersionArg.keyEq 128 supportedByArg [] [.version { release := [12, 0] }, .text (str "12.0"), .version { release := [12, 0, 0] },
      .text (str "9"), .unreleased] =
    [.ok ⟨true, true, false, false⟩, .ok ⟨true, true, false, false⟩, .ok ⟨true, true, false, false⟩, .error .lookup,
      .ok ⟨true, true, true, true⟩] := by decide +kernel

end V8.Props
