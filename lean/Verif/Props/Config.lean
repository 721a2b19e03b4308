import Verif.Model.Config
import Verif.Proofs.Prim
import Mathlib.Data.List.Basic
import Mathlib.Data.Nat.Bitwise
import Mathlib.Data.Nat.Find

/-!
# C24, C40, C41, C43, C47: configuration, flags and names
-/

namespace V8.Props
open V8

/-! ## C24 -/

/-- Component `i` of a version number; missing components count as 0. -/
def component (v : List Nat) (i : Nat) : Nat := (v[i]?).getD 0

/-- Version order on release numbers: the first differing component decides. -/
def Older (v w : List Nat) : Prop :=
  ∃ i, component v i < component w i ∧ ∀ j, j < i → component v j = component w j

/-- Version order with the symbolic newest version on top. -/
def OlderVer : Ver → Ver → Prop
  | .rel a, .rel b => Older a b
  | .rel _, .unreleased => True
  | .unreleased, _ => False

theorem component_strip (v : List Nat) (i : Nat) : component (stripZeros v) i = component v i := by
  induction v generalizing i with
  | nil => rfl
  | cons a t ih =>
    unfold stripZeros
    cases hs : stripZeros t with
    | nil =>
      have ht : ∀ j, component t j = 0 := fun j => by rw [← ih j, hs]; rfl
      by_cases ha : a = 0
      · rw [if_pos ha]
        cases i with
        | zero => subst ha; rfl
        | succ j => have := ht j; simp only [component, List.getElem?_cons_succ] at this ⊢; rw [this]; rfl
      · rw [if_neg ha]
        cases i with
        | zero => rfl
        | succ j => have := ht j; simp only [component, List.getElem?_cons_succ] at this ⊢; rw [this]; rfl
    | cons b u =>
      cases i with
      | zero => rfl
      | succ j =>
        have := ih j
        rw [hs] at this
        simpa only [component, List.getElem?_cons_succ] using this

theorem strip_tail (a : Nat) (t : List Nat) (h : stripZeros (a :: t) = a :: t) : stripZeros t = t := by
  unfold stripZeros at h
  cases hs : stripZeros t with
  | nil =>
    rw [hs] at h
    simp only at h
    split at h
    · simp at h
    · simp at h; exact h.symm
  | cons b u =>
    rw [hs] at h
    simp only at h
    simp at h
    exact h

theorem strip_cons_nil (a : Nat) (t : List Nat) (h : stripZeros t = []) :
    stripZeros (a :: t) = if a = 0 then [] else [a] := by
  rw [stripZeros, h]

theorem strip_cons_cons (a b : Nat) (t u : List Nat) (h : stripZeros t = b :: u) :
    stripZeros (a :: t) = a :: b :: u := by
  rw [stripZeros, h]

theorem strip_idem (v : List Nat) : stripZeros (stripZeros v) = stripZeros v := by
  induction v with
  | nil => rfl
  | cons a t ih =>
    cases hs : stripZeros t with
    | nil =>
      rw [strip_cons_nil a t hs]
      by_cases ha : a = 0
      · rw [if_pos ha]; rfl
      · rw [if_neg ha, strip_cons_nil a [] rfl, if_neg ha]
    | cons b u =>
      rw [hs] at ih
      rw [strip_cons_cons a b t u hs, strip_cons_cons a b (b :: u) u ih]

theorem strip_has_nonzero (v : List Nat) (h : stripZeros v = v) (h0 : v ≠ []) :
    ∃ i, 0 < component v i := by
  induction v with
  | nil => exact absurd rfl h0
  | cons a t ih =>
    by_cases ht : t = []
    · subst ht
      simp only [stripZeros] at h
      by_cases ha : a = 0
      · rw [if_pos ha] at h; simp at h
      · exact ⟨0, by simp [component]; omega⟩
    · obtain ⟨i, hi⟩ := ih (strip_tail a t h) ht
      exact ⟨i + 1, by simpa [component] using hi⟩

theorem tupleLt_iff (a b : List Nat) (ha : stripZeros a = a) (hb : stripZeros b = b) :
    tupleLt a b = true ↔ Older a b := by
  induction a generalizing b with
  | nil =>
    cases b with
    | nil => simp [tupleLt, Older]
    | cons b u =>
      simp only [tupleLt, true_iff]
      have hex := strip_has_nonzero (b :: u) hb (by simp)
      classical
      refine ⟨Nat.find hex, ?_, ?_⟩
      · have := Nat.find_spec hex
        simpa [component] using this
      · intro j hj
        have := Nat.find_min hex hj
        simp only [component, List.getElem?_nil, Option.getD_none] at this ⊢
        omega
  | cons x t ih =>
    cases b with
    | nil =>
      simp only [tupleLt, Bool.false_eq_true, false_iff]
      rintro ⟨i, hi, _⟩
      simp [component] at hi
    | cons y u =>
      simp only [tupleLt]
      by_cases hxy : x = y
      · subst hxy
        simp only [if_true]
        rw [ih u (strip_tail x t ha) (strip_tail x u hb)]
        constructor
        · rintro ⟨i, hi, hj⟩
          refine ⟨i + 1, by simpa [component] using hi, ?_⟩
          intro j hj'
          cases j with
          | zero => rfl
          | succ j => simpa [component] using hj j (by omega)
        · rintro ⟨i, hi, hj⟩
          cases i with
          | zero => simp [component] at hi
          | succ i =>
            refine ⟨i, by simpa [component] using hi, ?_⟩
            intro j hj'
            simpa [component] using hj (j + 1) (by omega)
      · rw [if_neg hxy]
        simp only [decide_eq_true_eq]
        constructor
        · intro h
          exact ⟨0, by simpa [component] using h, by intro j hj; omega⟩
        · rintro ⟨i, hi, hj⟩
          cases i with
          | zero => simpa [component] using hi
          | succ i =>
            have := hj 0 (by omega)
            simp [component] at this
            exact absurd this hxy

theorem older_strip (a b : List Nat) : Older (stripZeros a) (stripZeros b) ↔ Older a b := by
  unfold Older
  simp only [component_strip]

/-- The code's `<` on versions is the order just stated. -/
theorem lt_iff (v w : Ver) : v.lt w = true ↔ OlderVer v w := by
  cases v <;> cases w <;> simp only [Ver.lt, OlderVer]
  · rw [tupleLt_iff _ _ (strip_idem _) (strip_idem _), older_strip]
  all_goals simp

theorem le_iff (v w : Ver) : v.le w = true ↔ ¬ OlderVer w v := by
  cases v <;> cases w <;> simp only [Ver.le, OlderVer]
  · rw [Bool.not_eq_true', ← Bool.not_eq_true, tupleLt_iff _ _ (strip_idem _) (strip_idem _), older_strip]
  all_goals simp

theorem older_trans_le {u v w : Ver} (h : ¬ OlderVer v u) (h' : ¬ OlderVer w v) : ¬ OlderVer w u := by
  cases u with
  | unreleased =>
    cases v with
    | rel a => simp [OlderVer] at h
    | unreleased => exact h'
  | rel a =>
    cases w with
    | unreleased => simp [OlderVer]
    | rel c =>
      cases v with
      | unreleased => simp [OlderVer] at h'
      | rel b =>
        simp only [OlderVer] at h h' ⊢
        rintro ⟨i, hi, hj⟩
        -- the first index where `b` differs from `a` or from `c`
        by_cases hall : ∀ j, j < i → component b j = component a j
        · by_cases hbi : component b i < component a i
          · exact h ⟨i, hbi, hall⟩
          · exact h' ⟨i, by omega, fun j hj' => by rw [hj j hj', hall j hj']⟩
        · have hex : ∃ j, j < i ∧ component b j ≠ component a j := by
            by_contra hno
            apply hall
            intro j hj'
            by_contra hne
            exact hno ⟨j, hj', hne⟩
          classical
          obtain ⟨hk1, hk2⟩ := Nat.find_spec hex
          have hmin : ∀ m, m < Nat.find hex → component b m = component a m := by
            intro m hm
            by_contra hne
            exact Nat.find_min hex hm ⟨by omega, hne⟩
          by_cases hlt : component b (Nat.find hex) < component a (Nat.find hex)
          · exact h ⟨_, hlt, hmin⟩
          · refine h' ⟨Nat.find hex, ?_, ?_⟩
            · rw [hj _ hk1]; omega
            · intro m hm
              rw [hj m (by omega), hmin m hm]

/-- C24: `supported_by(v)` fails exactly for versions before 10.0.29, and otherwise contains a
feature exactly when `v` is not older than the feature's first version. -/
theorem C24_supported_by_exact (v : Ver) :
    (Features.supportedBy v = none ↔ OlderVer v (.rel [10, 0, 29])) ∧
    ∀ fs, Features.supportedBy v = some fs →
      ∀ f : Feature, fs.has f = true ↔ ¬ OlderVer v f.first := by
  constructor
  · unfold Features.supportedBy maxCompatVersion
    rw [← lt_iff]
    split
    · simp [*]
    · simp [*]
  · intro fs hfs f
    unfold Features.supportedBy at hfs
    split at hfs
    · simp at hfs
    · simp only [Option.some.injEq] at hfs
      subst hfs
      rw [← le_iff]
      simp only [Features.collect, Feature.all]
      cases h1 : (Feature.first .regExpUnicodeSets).le v <;>
        cases h2 : (Feature.first .resizableArrayBuffers).le v <;>
        cases h3 : (Feature.first .circularErrorCause).le v <;>
        cases h4 : (Feature.first .float16Array).le v <;>
        simp only [h1, h2, h3, h4, Bool.false_eq_true, if_false, if_true] <;>
        cases f <;> simp [Features.has, Features.add, Features.none, h1, h2, h3, h4]

/-- C24: a newer version supports every feature an older one does. -/
theorem C24_monotone (v w : Ver) (fv fw : Features) (h : ¬ OlderVer w v)
    (hv : Features.supportedBy v = some fv) (hw : Features.supportedBy w = some fw)
    (f : Feature) (hf : fv.has f = true) : fw.has f = true := by
  rw [(C24_supported_by_exact w).2 fw hw f]
  rw [(C24_supported_by_exact v).2 fv hv f] at hf
  exact older_trans_le hf h

/-- C24: an encoder has a feature exactly when it was asked for or the version supports it. -/
theorem C24_encoder_features (features : Option Features) (v : Ver) (fs sup : Features)
    (h : encoderFeatures features (some v) = some fs) (hs : Features.supportedBy v = some sup)
    (f : Feature) :
    fs.has f = true ↔ ((∃ g, features = some g ∧ g.has f = true) ∨ sup.has f = true) := by
  unfold encoderFeatures at h
  simp only [hs, Option.map_some, Option.some.injEq] at h
  subst h
  cases features with
  | none => cases f <;> simp [Features.union, Features.has, Features.none]
  | some g => cases f <;> simp [Features.union, Features.has]

theorem maxVer_spec (m : Ver) (l : List Ver) :
    maxVer m l ∈ m :: l ∧ ∀ v ∈ m :: l, ¬ OlderVer (maxVer m l) v := by
  have irr : ∀ v, ¬ OlderVer v v := by
    intro v
    cases v with
    | unreleased => simp [OlderVer]
    | rel a =>
      simp only [OlderVer]
      rintro ⟨i, hi, _⟩; omega
  have asym : ∀ u v, OlderVer u v → ¬ OlderVer v u := by
    intro u v h h'
    cases u with
    | unreleased => simp [OlderVer] at h
    | rel a =>
      cases v with
      | unreleased => simp [OlderVer] at h'
      | rel b =>
        obtain ⟨i, hi, hi'⟩ := h
        obtain ⟨j, hj, hj'⟩ := h'
        rcases Nat.lt_trichotomy i j with hlt | rfl | hlt
        · have := hj' i hlt; omega
        · omega
        · have := hi' j hlt; omega
  induction l generalizing m with
  | nil =>
    simp only [maxVer]
    exact ⟨List.mem_cons_self, by intro v hv; simp at hv; subst hv; exact irr _⟩
  | cons w t ih =>
    simp only [maxVer]
    by_cases hlt : m.lt w = true
    · rw [if_pos hlt]
      obtain ⟨h1, h2⟩ := ih w
      refine ⟨List.mem_cons_of_mem _ h1, ?_⟩
      intro v hv
      rcases List.mem_cons.1 hv with rfl | hv
      · exact older_trans_le (asym _ _ ((lt_iff _ _).1 hlt)) (h2 w List.mem_cons_self)
      · exact h2 v hv
    · rw [if_neg hlt]
      obtain ⟨h1, h2⟩ := ih m
      refine ⟨?_, ?_⟩
      · rcases List.mem_cons.1 h1 with h | h
        · rw [h]; exact List.mem_cons_self
        · exact List.mem_cons_of_mem _ (List.mem_cons_of_mem _ h)
      · intro v hv
        rcases List.mem_cons.1 hv with rfl | hv
        · exact h2 _ List.mem_cons_self
        · rcases List.mem_cons.1 hv with rfl | hv
          · exact older_trans_le (fun h => hlt ((lt_iff _ _).2 h)) (h2 m List.mem_cons_self)
          · exact h2 v (List.mem_cons_of_mem _ hv)

/-- C24: with at least one feature, `Encoder.first_v8_version` is not older than the first version of
any enabled feature, and no version below it has that quality. -/
theorem C24_first_v8_version (fs : Features) (v : Ver) (h : firstV8Version fs = .ok v) :
    (∀ f, fs.has f = true → ¬ OlderVer v f.first) ∧
    (∀ w, (∀ f, fs.has f = true → ¬ OlderVer w f.first) → ¬ OlderVer w v) := by
  unfold firstV8Version at h
  have hall : ∀ f : Feature, f ∈ Feature.all := by intro f; cases f <;> decide
  cases hl : (Feature.all.filter fs.has).map Feature.first with
  | nil => rw [hl] at h; simp at h
  | cons x t =>
    rw [hl] at h
    simp only [Except.ok.injEq] at h
    obtain ⟨h1, h2⟩ := maxVer_spec x t
    rw [h] at h1 h2
    constructor
    · intro f hf
      apply h2
      rw [← hl]
      exact List.mem_map_of_mem (List.mem_filter.2 ⟨hall f, hf⟩)
    · intro w hw
      rw [← hl] at h1
      obtain ⟨f, hf, rfl⟩ := List.mem_map.1 h1
      exact hw f (List.mem_filter.1 hf).2

/-- C24 disagreement: for an encoder without features the property raises ValueError instead of
answering 10.0.29. -/
theorem C24_no_features_raises : firstV8Version Features.none = .error .valueError := by decide

example : Features.supportedBy (.rel [12, 4, 254, 14]) = some ⟨true, true, true, false⟩ := by decide
example : Features.supportedBy (.rel [10, 0, 28, 99]) = none := by decide
example : Features.supportedBy (.rel [11, 0, 193, 0]) = some ⟨true, true, false, false⟩ := by decide
example : firstV8Version ⟨true, true, false, false⟩ = .ok (.rel [11, 0, 193]) := by decide

/-! ## C40 -/

/-- A step that hands a value on: it calls `next(b)` once and may transform the outcome. -/
def HandsOn {α ρ : Type} (s : α → (α → ρ) → ρ) (a b : α) (f : ρ → ρ) : Prop :=
  ∀ next, s a next = f (next b)

/-- A step that settles a value: the outcome does not depend on `next`. -/
def Settles {α ρ : Type} (s : α → (α → ρ) → ρ) (a : α) (r : ρ) : Prop := ∀ next, s a next = r

/-- A run through the chain: `Offered steps a r` says that the first step is offered `a`, each step
is offered what the one before handed on, and the outcome is that of the first step that settles (or
the unhandled error), transformed on the way back by the steps that handed on. -/
inductive Offered {α ρ : Type} (unhandled : α → ρ) : List (α → (α → ρ) → ρ) → α → ρ → Prop
  | nobody (a) : Offered unhandled [] a (unhandled a)
  | settled {s t a r} : Settles s a r → Offered unhandled (s :: t) a r
  | handedOn {s t a b f r} : HandsOn s a b f → Offered unhandled t b r →
      Offered unhandled (s :: t) a (f r)

theorem chainFrom_drop {α ρ : Type} (u : α → ρ) (steps : List (α → (α → ρ) → ρ)) (a : α) (r : ρ)
    (i : Nat) (h : Offered u (steps.drop i) a r) (hi : i ≤ steps.length) :
    chainFrom u steps i a = r := by
  generalize hd : steps.drop i = l at h
  induction h generalizing i with
  | nobody a =>
    rw [chainFrom, dif_neg]
    rw [List.drop_eq_nil_iff] at hd; omega
  | @settled s t a r hs =>
    have hlt : i < steps.length := by
      by_contra hge
      rw [List.drop_eq_nil_of_le (by omega)] at hd; simp at hd
    rw [List.drop_eq_getElem_cons hlt] at hd
    simp only [List.cons.injEq] at hd
    rw [chainFrom, dif_pos hlt, hd.1]
    exact hs _
  | @handedOn s t a b f r hs _ ih =>
    have hlt : i < steps.length := by
      by_contra hge
      rw [List.drop_eq_nil_of_le (by omega)] at hd; simp at hd
    rw [List.drop_eq_getElem_cons hlt] at hd
    simp only [List.cons.injEq] at hd
    rw [chainFrom, dif_pos hlt, hd.1, hs]
    rw [ih (i + 1) hlt hd.2]

/-- C40: running the chain from the first step gives the outcome of offering the value to the steps
in order. -/
theorem C40_steps_in_order {α ρ : Type} (u : α → ρ) (steps : List (α → (α → ρ) → ρ)) (a : α) (r : ρ)
    (h : Offered u steps a r) : chainFrom u steps 0 a = r :=
  chainFrom_drop u steps a r 0 (by simpa using h) (by omega)

/-- A chain of three: the first hands on a changed value and marks the result, the second settles,
the third is never reached. -/
example :
    chainFrom (fun n : Nat => ("unhandled", n))
      [fun a next => ((next (a + 1)).1 ++ "!", (next (a + 1)).2),
       fun a _ => ("second", a), fun a _ => ("third", a)] 0 5 = ("second!", 6) :=
  C40_steps_in_order _ _ _ _
    (.handedOn (b := 6) (f := fun r => (r.1 ++ "!", r.2)) (r := ("second", 6)) (fun _ => rfl) (.settled (fun _ => rfl)))

/-! ## C41 -/

/-- C41: the TypeErrors of `loads`. -/
theorem C41_type_errors (o : LoadsOpts) :
    loadsPlan o = .error .typeError ↔
      (o.decodeSteps = true ∧ (o.nodejs ≠ none ∨ o.jsmapType = true ∨ o.jssetType = true ∨
        o.jsObjectType = true ∨ o.jsArrayType = true ∨ o.jsConstants = true ∨
        o.hostObjectDeserializer = true ∨ o.jsErrorBuilder = true ∨ o.defaultTimezone = true)) ∨
      (o.decodeSteps = false ∧ o.nodejs = some true ∧ o.hostObjectDeserializer = true) := by
  obtain ⟨a, n, b, c, d, e, f, g, h, i⟩ := o
  rcases n with _ | _ | _ <;> revert a b c d e f g h i <;> decide

/-- C41: the Node.js handler is installed exactly when `decode_steps` and `host_object_deserializer`
are unset and `nodejs` is not False; no other error occurs. -/
theorem C41_node_handler (o : LoadsOpts) :
    (loadsPlan o = .ok (.tagReader .nodejs) ↔
      o.decodeSteps = false ∧ o.hostObjectDeserializer = false ∧ o.nodejs ≠ some false) ∧
    (∀ e, loadsPlan o = .error e → e = .typeError) := by
  constructor
  · obtain ⟨a, n, b, c, d, e, f, g, h, i⟩ := o
    rcases n with _ | _ | _ <;> revert a b c d e f g h i <;> decide
  · intro e he
    unfold loadsPlan at he
    split at he
    · split at he
      · simp at he; exact he.symm
      · simp at he
    · split at he
      · simp at he; exact he.symm
      · split at he <;> simp at he

example : loadsPlan ⟨false, some false, true, false, false, false, false, false, false, false⟩
    = .ok (.tagReader .none) := by decide

/-! ## C43 -/

/-- C43: every RegExp that can be built has a non-empty source and not both `u` (bit 4) and `v`
(bit 8). -/
theorem C43_valid (source : Str) (flags : Nat) (r : RegExp) (h : mkRegExp source flags = .ok r) :
    r.source ≠ [] ∧ ¬ (r.flags.testBit 4 = true ∧ r.flags.testBit 8 = true) ∧ r.flags = flags ∧
    (source ≠ [] → r.source = source) := by
  unfold mkRegExp at h
  by_cases hm : flagMember 0b111111111 flags ≠ .ok flags
  · rw [if_pos hm] at h; cases h
  rw [if_neg hm] at h
  split at h
  · simp at h
  · rename_i hf
    simp only [Except.ok.injEq] at h
    subst h
    refine ⟨?_, ?_, rfl, ?_⟩
    · simp only
      split
      · decide
      · assumption
    · intro hh; apply hf; simp [flagUnicode, flagUnicodeSets, hh.1, hh.2]
    · intro hs; simp only; rw [if_neg hs]

/-- C43: what is written is below 2^9 and keeps the nine defined bits. -/
theorem C43_canonical (flags : Nat) :
    canonicalFlags flags < 2 ^ 9 ∧
    (∀ i, i < 9 → (canonicalFlags flags).testBit i = flags.testBit i) ∧
    canonicalFlags (canonicalFlags flags) = canonicalFlags flags := by
  have key : canonicalFlags flags = flags % 2 ^ 9 := by
    unfold canonicalFlags
    exact Nat.and_two_pow_sub_one_eq_mod flags 9
  refine ⟨?_, ?_, ?_⟩
  · rw [key]; exact Nat.mod_lt _ (by decide)
  · intro i hi
    rw [key, Nat.testBit_mod_two_pow]
    simp [hi]
  · have k2 : canonicalFlags (canonicalFlags flags) = canonicalFlags flags % 2 ^ 9 := by
      conv => lhs; rw [canonicalFlags]
      exact Nat.and_two_pow_sub_one_eq_mod _ 9
    rw [k2, key, Nat.mod_mod]

/-- C43: the canonical flags of a RegExp, written as a varint and read back, are accepted again and
are the same canonical flags. -/
theorem C43_flags_round_trip (r : RegExp) (source : Str) (flags : Nat)
    (h : mkRegExp source flags = .ok r) (pre post : Bytes) :
    readVarint none (pre ++ writeVarint (canonicalFlags r.flags) ++ post) pre.length
      = .ok (canonicalFlags r.flags, pre.length + (writeVarint (canonicalFlags r.flags)).length) ∧
    mkRegExp r.source (canonicalFlags r.flags) = .ok ⟨r.source, canonicalFlags r.flags⟩ := by
  obtain ⟨h1, h2, _, _⟩ := C43_valid source flags r h
  obtain ⟨_, hb, _⟩ := C43_canonical r.flags
  constructor
  · have := readVarint_reads (canonicalFlags r.flags)
    exact this pre post
  · unfold mkRegExp
    have hs : canonicalFlags r.flags < 2 ^ 64 := Nat.lt_trans (C43_canonical r.flags).1 (by decide)
    rw [if_neg (fun hn => hn (flagMember_small hs)), if_neg, if_neg h1]
    simp only [flagUnicode, flagUnicodeSets, Bool.and_eq_true]
    rw [hb 4 (by omega), hb 8 (by omega)]
    exact h2

example : mkRegExp (str "") 0b100000011 = .ok ⟨str "(?:)", 259⟩ := by decide +kernel
example : mkRegExp (str "a") 0b100010000 = .error .valueError := by decide +kernel

/-! ## C47 (names) -/

/-- The names JavaScript errors can have, as the code spells them. -/
def knownNames : List String :=
  ["EvalError", "RangeError", "ReferenceError", "SyntaxError", "TypeError", "UriError", "Error"]

/-- C47: a name that goes out comes back if it is a known one, and otherwise becomes `Error`:
`for_error_tag` of the tag written (or of no tag, which is `Error`) is the known name. -/
theorem C47_name_round_trip (s : Str) :
    let n := ErrName.forName s
    (match n.tag with
      | some t => ErrName.forTag t = n
      | none => n = .error) ∧
    (n.value = s ∨ (n = .error ∧ ∀ k ∈ knownNames, s ≠ str k)) := by
  simp only
  have hmem : ∀ n : ErrName, n ∈ ErrName.all := by intro n; cases n <;> decide
  constructor
  · cases ErrName.forName s <;> rfl
  · unfold ErrName.forName
    cases hf : ErrName.all.find? (fun n => n.value == s) with
    | some n =>
      left
      have := List.find?_some hf
      simpa using this
    | none =>
      right
      refine ⟨rfl, ?_⟩
      rw [List.find?_eq_none] at hf
      intro k hk heq
      subst heq
      simp only [knownNames, List.mem_cons, List.not_mem_nil, or_false] at hk
      rcases hk with rfl | rfl | rfl | rfl | rfl | rfl | rfl
      · exact hf .evalError (hmem _) (by decide)
      · exact hf .rangeError (hmem _) (by decide)
      · exact hf .referenceError (hmem _) (by decide)
      · exact hf .syntaxError (hmem _) (by decide)
      · exact hf .typeError (hmem _) (by decide)
      · exact hf .uriError (hmem _) (by decide)
      · exact hf .error (hmem _) (by decide)

/-- C47: whatever tag is read, the name is one of the seven. -/
theorem C47_decoded_name_known (t : ErrTag) : ∃ k ∈ knownNames, (ErrName.forTag t).value = str k := by
  cases t <;> decide

/-- C47 disagreement: the enum spells the URI error "UriError"; JavaScript's own name "URIError" is
not recognised and is sent as a plain Error. -/
theorem C47_uri_error_not_recognised : ErrName.forName (str "URIError") = .error := by decide

example : ErrName.forName (str "RangeError") = .rangeError := by decide
example : ErrName.forName (str "MyError") = .error := by decide

end V8.Props
