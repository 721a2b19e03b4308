import Verif.Model.DecodePos

/-!
# Positions of errors: readers
-/

namespace V8.Pos

variable {bd : Bool}

/-- Forget the position of an error. -/
def erase {α : Type} : Except PErr α → Except DErr α
  | .ok a => .ok a
  | .error e => .error e.1

/-- The bytes before `n` are the same, and `d'` is not shorter. -/
structure Agree (d d' : Bytes) (n : Nat) : Prop where
  same : ∀ i < n, d[i]? = d'[i]?
  len : d.length ≤ d'.length

/-- What is shown of a reader and its counterpart without positions; `bd`: it does not pass the end of the data. -/
structure RdOk {α : Type} (bd : Bool) (x : Rd α) (z : V8.Rd α) : Prop where
  erase : ∀ d p, erase (x d p) = z d p
  mono : ∀ d p, (∀ a q, x d p = .ok (a, q) → p ≤ q) ∧ (∀ e q, x d p = .error (e, q) → p ≤ q)
  bound : bd = true → ∀ d p, p ≤ d.length → (∀ a q, x d p = .ok (a, q) → q ≤ d.length) ∧ (∀ e q, x d p = .error (e, q) → q ≤ d.length)
  handled : ∀ d p q, x d p ≠ .error (.unhandledTag, q)
  sim : ∀ d d' n p, Agree d d' n →
    (∀ a q, x d p = .ok (a, q) → q ≤ n →
      x d' p = .ok (a, q) ∨ ((∀ b r, x d' p = .ok (b, r) → n ≤ r + 3) ∧ (∀ e r, x d' p = .error (e, r) → n ≤ r + 3))) ∧
    (∀ e, x d p = .error (e, n) →
      (∀ b r, x d' p = .ok (b, r) → n ≤ r + 3) ∧ (∀ e r, x d' p = .error (e, r) → n ≤ r + 3))

/-- A reader that stays where it is or fails there. -/
theorem RdOk.still {α : Type} {x : Rd α} {z : V8.Rd α} (he : ∀ d p, Pos.erase (x d p) = z d p)
    (hs : ∀ d p, (∃ a, x d p = .ok (a, p)) ∨ (∃ e, e ≠ .unhandledTag ∧ x d p = .error (e, p)))
    (hsame : ∀ d d' p, d.length ≤ d'.length → d[p]? = d'[p]? → (∃ a, x d p = .ok (a, p)) → x d' p = x d p) : RdOk bd x z := by
  refine ⟨he, ?_, ?_, ?_, ?_⟩
  · intro d p
    rcases hs d p with ⟨a, h⟩ | ⟨e, _, h⟩ <;> rw [h]
    · exact ⟨fun b q hq => by cases hq; exact Nat.le_refl _, fun b q hq => by cases hq⟩
    · exact ⟨fun b q hq => (by cases hq), fun b q hq => by cases hq; exact Nat.le_refl _⟩
  · intro _ d p hp
    rcases hs d p with ⟨a, h⟩ | ⟨e, _, h⟩ <;> rw [h]
    · exact ⟨fun b q hq => by cases hq; exact hp, fun b q hq => by cases hq⟩
    · exact ⟨fun b q hq => (by cases hq), fun b q hq => by cases hq; exact hp⟩
  · intro d p q hq
    rcases hs d p with ⟨a, h⟩ | ⟨e, hn, h⟩ <;> rw [h] at hq
    · cases hq
    · cases hq; exact hn rfl
  · intro d d' n p ha
    have late : n ≤ p + 3 → (∀ b r, x d' p = .ok (b, r) → n ≤ r + 3) ∧ (∀ e r, x d' p = .error (e, r) → n ≤ r + 3) := by
      intro hle
      rcases hs d' p with ⟨a', h'⟩ | ⟨e', _, h'⟩ <;> rw [h']
      · exact ⟨fun b r hr => by cases hr; exact hle, fun e r hr => by cases hr⟩
      · exact ⟨fun b r hr => (by cases hr), fun e r hr => by cases hr; exact hle⟩
    rcases hs d p with ⟨a, h⟩ | ⟨e, _, h⟩
    · rw [h]
      refine ⟨?_, fun e he => (by cases he)⟩
      intro b q hq hn
      cases hq
      by_cases hlt : p < n
      · left
        rw [hsame d d' p ha.len (ha.same p hlt) ⟨a, h⟩, h]
      · right
        exact late (by omega)
    · rw [h]
      refine ⟨fun b q hq => (by cases hq), ?_⟩
      intro e' he'
      cases he'
      exact late (by omega)

theorem RdOk.pure' {α : Type} (a : α) : RdOk bd (pure a : Rd α) (pure a : V8.Rd α) :=
  RdOk.still (fun _ _ => rfl) (fun _ _ => Or.inl ⟨a, rfl⟩) (fun _ _ _ _ _ _ => rfl)

theorem RdOk.fail' {α : Type} (e : DErr) (he : e ≠ .unhandledTag) : RdOk bd (Rd.fail e : Rd α) (V8.Rd.fail e) :=
  RdOk.still (fun _ _ => rfl) (fun _ _ => Or.inr ⟨e, he, rfl⟩) (fun _ _ _ _ _ _ => rfl)

theorem RdOk.throw' {α : Type} : RdOk bd (throwD : Rd α) V8.throwD := RdOk.fail' _ (by decide)

theorem throwFmt_ne (n : Nat) : throwFmt n ≠ .unhandledTag := by
  unfold throwFmt
  split <;> decide

theorem Rd.bind_ok {α β : Type} {x : Rd α} {f : α → Rd β} {d : Bytes} {p : Nat} {a : α} {q : Nat} (h : x d p = .ok (a, q)) :
    (x >>= f) d p = f a d q := by
  show Rd.bind x f d p = _
  unfold Rd.bind
  rw [h]

theorem Rd.bind_err {α β : Type} {x : Rd α} {f : α → Rd β} {d : Bytes} {p : Nat} {e : PErr} (h : x d p = .error e) :
    (x >>= f) d p = .error e := by
  show Rd.bind x f d p = _
  unfold Rd.bind
  rw [h]

theorem V8Rd.bind_ok {α β : Type} {x : V8.Rd α} {f : α → V8.Rd β} {d : Bytes} {p : Nat} {a : α} {q : Nat}
    (h : x d p = .ok (a, q)) : (x >>= f) d p = f a d q := by
  show V8.Rd.bind x f d p = _
  unfold V8.Rd.bind
  rw [h]

theorem V8Rd.bind_err {α β : Type} {x : V8.Rd α} {f : α → V8.Rd β} {d : Bytes} {p : Nat} {e : DErr} (h : x d p = .error e) :
    (x >>= f) d p = .error e := by
  show V8.Rd.bind x f d p = _
  unfold V8.Rd.bind
  rw [h]

theorem RdOk.bind' {α β : Type} {x : Rd α} {z : V8.Rd α} {f : α → Rd β} {g : α → V8.Rd β} (hx : RdOk bd x z)
    (hf : ∀ a, RdOk bd (f a) (g a)) : RdOk bd (x >>= f) (z >>= g) := by
  refine ⟨?_, ?_, ?_, ?_, ?_⟩
  · intro d p
    have h1 := hx.erase d p
    cases h : x d p with
    | ok r =>
      obtain ⟨a, q⟩ := r
      rw [h] at h1
      rw [Rd.bind_ok h, V8Rd.bind_ok h1.symm]
      exact (hf a).erase d q
    | error e =>
      rw [h] at h1
      rw [Rd.bind_err h, V8Rd.bind_err h1.symm]
      rfl
  · intro d p
    have h1 := hx.mono d p
    cases h : x d p with
    | ok r =>
      obtain ⟨a, q⟩ := r
      rw [Rd.bind_ok h]
      have := h1.1 a q h
      have h2 := (hf a).mono d q
      exact ⟨fun b r hr => Nat.le_trans this (h2.1 b r hr), fun e r hr => Nat.le_trans this (h2.2 e r hr)⟩
    | error e =>
      rw [Rd.bind_err h]
      exact ⟨fun b r hr => (by cases hr), fun e' r hr => h1.2 e' r (by cases hr; exact h)⟩
  · intro _ d p hp
    have h1 := hx.bound ‹_› d p hp
    cases h : x d p with
    | ok r =>
      obtain ⟨a, q⟩ := r
      rw [Rd.bind_ok h]
      exact (hf a).bound ‹_› d q (h1.1 a q h)
    | error e =>
      rw [Rd.bind_err h]
      exact ⟨fun b r hr => (by cases hr), fun e' r hr => h1.2 e' r (by cases hr; exact h)⟩
  · intro d p q
    cases h : x d p with
    | ok r =>
      obtain ⟨a, q'⟩ := r
      rw [Rd.bind_ok h]
      exact (hf a).handled d q' q
    | error e =>
      rw [Rd.bind_err h]
      intro hq
      cases hq
      exact hx.handled d p _ h
  · intro d d' n p ha
    have hs := hx.sim d d' n p ha
    have late : ((∀ b r, x d' p = .ok (b, r) → n ≤ r + 3) ∧ (∀ e r, x d' p = .error (e, r) → n ≤ r + 3)) →
        ((∀ b r, (x >>= f) d' p = .ok (b, r) → n ≤ r + 3) ∧ (∀ e r, (x >>= f) d' p = .error (e, r) → n ≤ r + 3)) := by
      intro hl
      cases h : x d' p with
      | ok r =>
        obtain ⟨a, q⟩ := r
        rw [Rd.bind_ok h]
        have h1 := hl.1 a q h
        have h2 := (hf a).mono d' q
        exact ⟨fun b r hr => by have := h2.1 b r hr; omega, fun e r hr => by have := h2.2 e r hr; omega⟩
      | error e =>
        rw [Rd.bind_err h]
        exact ⟨fun b r hr => (by cases hr), fun e' r hr => hl.2 e' r (by cases hr; exact h)⟩
    cases h : x d p with
    | ok r =>
      obtain ⟨a, q⟩ := r
      rw [Rd.bind_ok h]
      have hm := (hf a).mono d q
      have hs2 := (hf a).sim d d' n q ha
      constructor
      · intro b r hr hn
        have hq := hm.1 b r hr
        rcases hs.1 a q h (by omega) with h' | h'
        · rw [Rd.bind_ok h']
          exact hs2.1 b r hr hn
        · right; exact late h'
      · intro e he
        have hq := hm.2 e n he
        rcases hs.1 a q h (by omega) with h' | h'
        · rw [Rd.bind_ok h']
          exact hs2.2 e he
        · exact late h'
    | error e =>
      rw [Rd.bind_err h]
      refine ⟨fun b r hr => (by cases hr), ?_⟩
      intro e' he'
      exact late (hs.2 e' (by cases he'; exact h))

theorem RdOk.ite' {α : Type} {c : Prop} [Decidable c] {x y : Rd α} {z w : V8.Rd α} (hx : RdOk bd x z) (hy : RdOk bd y w) :
    RdOk bd (if c then x else y) (if c then z else w) := by
  split
  · exact hx
  · exact hy

/-! ### Basic readers -/

theorem ensureCapacity_ok (n : Nat) : RdOk bd (ensureCapacity n) (V8.ensureCapacity n) := by
  refine RdOk.still ?_ ?_ ?_
  · intro d p
    unfold ensureCapacity V8.ensureCapacity
    split <;> rfl
  · intro d p
    unfold ensureCapacity
    split
    · exact Or.inr ⟨_, throwFmt_ne n, rfl⟩
    · exact Or.inl ⟨_, rfl⟩
  · intro d d' p hl _ ⟨a, h⟩
    unfold ensureCapacity at h ⊢
    split at h
    · cases h
    · rw [if_neg (by omega), if_neg (by omega)]

theorem byteHere_ok : RdOk bd byteHere V8.byteHere := by
  refine RdOk.still ?_ ?_ ?_
  · intro d p
    unfold byteHere V8.byteHere
    cases d[p]? <;> rfl
  · intro d p
    unfold byteHere
    cases d[p]? with
    | none => exact Or.inr ⟨_, by decide, rfl⟩
    | some b => exact Or.inl ⟨_, rfl⟩
  · intro d d' p _ hb _
    unfold byteHere
    rw [hb]

theorem peakTag_ok : RdOk bd peakTag V8.peakTag := by
  refine RdOk.still ?_ ?_ ?_
  · intro d p
    unfold peakTag V8.peakTag
    split
    · rfl
    · cases d[p]? <;> rfl
  · intro d p
    unfold peakTag
    split
    · exact Or.inl ⟨_, rfl⟩
    · cases d[p]? with
      | none => exact Or.inr ⟨_, by decide, rfl⟩
      | some b => exact Or.inl ⟨_, rfl⟩
  · intro d d' p hl hb ⟨a, ho⟩
    unfold peakTag at ho ⊢
    rw [← hb]
    by_cases hp : p = d.length
    · have h1 : d[p]? = none := by rw [List.getElem?_eq_none_iff]; omega
      rw [h1] at hb
      have h2 := List.getElem?_eq_none_iff.1 hb.symm
      have hp' : p = d'.length := by omega
      rw [if_pos hp', if_pos hp]
    · rw [if_neg hp]
      by_cases hp' : p = d'.length
      · exfalso
        have h1 : d'[p]? = none := by rw [List.getElem?_eq_none_iff]; omega
        rw [h1] at hb
        rw [if_neg hp, hb] at ho
        cases ho
      · rw [if_neg hp']

theorem slice_same {d d' : Bytes} {n p k : Nat} (ha : Agree d d' n) (h : p + k ≤ n) :
    (d.drop p).take k = (d'.drop p).take k := by
  apply List.ext_getElem?
  intro i
  rw [List.getElem?_take, List.getElem?_take]
  split
  · rw [List.getElem?_drop, List.getElem?_drop]
    exact ha.same _ (by omega)
  · rfl

/-- Bytes taken after a check that they are there. -/
def taken (k : Nat) (e : DErr) : Rd Bytes := fun d p =>
  if p + k > d.length then .error (e, p) else .ok ((d.drop p).take k, p + k)

def taken' (k : Nat) (e : DErr) : V8.Rd Bytes := fun d p =>
  if p + k > d.length then .error e else .ok ((d.drop p).take k, p + k)

theorem take_ok (k : Nat) (e : DErr) (he : e ≠ .unhandledTag) : RdOk bd (taken k e) (taken' k e) := by
  refine ⟨?_, ?_, ?_, ?_, ?_⟩
  · intro d p
    unfold taken taken'
    split <;> rfl
  · intro d p
    unfold taken
    split
    · exact ⟨fun b q hq => (by cases hq), fun b q hq => by cases hq; exact Nat.le_refl _⟩
    · exact ⟨fun b q hq => by cases hq; omega, fun b q hq => by cases hq⟩
  · intro _ d p hp
    unfold taken
    split
    · exact ⟨fun b q hq => (by cases hq), fun b q hq => by cases hq; exact hp⟩
    · exact ⟨fun b q hq => by cases hq; omega, fun b q hq => by cases hq⟩
  · intro d p q hq
    unfold taken at hq
    split at hq
    · cases hq; exact he rfl
    · cases hq
  · intro d d' n p ha
    unfold taken
    have late : n ≤ p + 3 →
        (∀ (b : Bytes) r, (if p + k > d'.length then (.error (e, p) : Except PErr (Bytes × Nat)) else
          .ok ((d'.drop p).take k, p + k)) = .ok (b, r) → n ≤ r + 3) ∧
        (∀ e' r, (if p + k > d'.length then (.error (e, p) : Except PErr (Bytes × Nat)) else
          .ok ((d'.drop p).take k, p + k)) = .error (e', r) → n ≤ r + 3) := by
      intro hle
      split
      · exact ⟨fun b r hr => (by cases hr), fun e r hr => by cases hr; exact hle⟩
      · exact ⟨fun b r hr => by cases hr; omega, fun e r hr => by cases hr⟩
    by_cases hc : p + k > d.length
    · rw [if_pos hc]
      exact ⟨fun a q hq => (by cases hq), fun e' he' => by cases he'; exact late (by omega)⟩
    · rw [if_neg hc]
      refine ⟨?_, fun e' he' => by cases he'⟩
      intro a q hq hn
      cases hq
      left
      have := ha.len
      rw [if_neg (by omega), slice_same ha hn]

theorem readBytes_eq (k : Nat) : readBytes k = taken k (throwFmt k) := by
  funext d p
  unfold taken
  by_cases h : p + k > d.length
  · have : ensureCapacity k d p = .error (throwFmt k, p) := by unfold ensureCapacity; rw [if_pos h]
    unfold readBytes
    rw [Rd.bind_err this, if_pos h]
  · have : ensureCapacity k d p = .ok ((), p) := by unfold ensureCapacity; rw [if_neg h]
    unfold readBytes
    rw [Rd.bind_ok this, if_neg h]
    rfl

theorem readBytes_eq' (k : Nat) : V8.readBytes k = taken' k (throwFmt k) := by
  funext d p
  unfold taken'
  by_cases h : p + k > d.length
  · have : V8.ensureCapacity k d p = .error (throwFmt k) := by unfold V8.ensureCapacity; rw [if_pos h]
    unfold V8.readBytes
    rw [V8Rd.bind_err this, if_pos h]
  · have : V8.ensureCapacity k d p = .ok ((), p) := by unfold V8.ensureCapacity; rw [if_neg h]
    unfold V8.readBytes
    rw [V8Rd.bind_ok this, if_neg h]
    rfl

theorem readBytes_ok (k : Nat) : RdOk bd (readBytes k) (V8.readBytes k) := by
  rw [readBytes_eq, readBytes_eq']
  exact take_ok k _ (throwFmt_ne k)

theorem fit_eq (k : Nat) : (checkFits k >>= fun _ => takeHere k) = taken k .decode := by
  funext d p
  unfold taken
  by_cases h : p + k > d.length
  · have : checkFits k d p = .error (.decode, p) := by unfold checkFits; rw [if_pos h]
    rw [Rd.bind_err this, if_pos h]
  · have : checkFits k d p = .ok ((), p) := by unfold checkFits; rw [if_neg h]
    rw [Rd.bind_ok this, if_neg h]
    rfl

theorem fit_eq' (k : Nat) : (V8.checkFits k >>= fun _ => V8.takeHere k) = taken' k .decode := by
  funext d p
  unfold taken'
  by_cases h : p + k > d.length
  · have : V8.checkFits k d p = .error .decode := by unfold V8.checkFits; rw [if_pos h]
    rw [V8Rd.bind_err this, if_pos h]
  · have : V8.checkFits k d p = .ok ((), p) := by unfold V8.checkFits; rw [if_neg h]
    rw [V8Rd.bind_ok this, if_neg h]
    rfl

theorem fit_ok (k : Nat) : RdOk bd (checkFits k >>= fun _ => takeHere k) (V8.checkFits k >>= fun _ => V8.takeHere k) := by
  rw [fit_eq, fit_eq']
  exact take_ok k _ (by decide)

theorem Rd.assoc {α β γ : Type} (x : Rd α) (f : α → Rd β) (g : β → Rd γ) : (x >>= f) >>= g = x >>= fun a => f a >>= g := by
  funext d p
  cases h : x d p with
  | ok r => obtain ⟨a, q⟩ := r; rw [Rd.bind_ok h]; show Rd.bind _ g d p = Rd.bind _ g d q; unfold Rd.bind; rw [Rd.bind_ok h]
  | error e => rw [Rd.bind_err h, Rd.bind_err (Rd.bind_err h)]

theorem V8Rd.assoc {α β γ : Type} (x : V8.Rd α) (f : α → V8.Rd β) (g : β → V8.Rd γ) :
    (x >>= f) >>= g = x >>= fun a => f a >>= g := by
  funext d p
  cases h : x d p with
  | ok r =>
    obtain ⟨a, q⟩ := r; rw [V8Rd.bind_ok h]; show V8.Rd.bind _ g d p = V8.Rd.bind _ g d q; unfold V8.Rd.bind; rw [V8Rd.bind_ok h]
  | error e => rw [V8Rd.bind_err h, V8Rd.bind_err (V8Rd.bind_err h)]

theorem fitThen_ok {β : Type} (k : Nat) {f : Bytes → Rd β} {g : Bytes → V8.Rd β} (hf : ∀ b, RdOk bd (f b) (g b)) :
    RdOk bd (checkFits k >>= fun _ => takeHere k >>= f) (V8.checkFits k >>= fun _ => V8.takeHere k >>= g) := by
  have := (fit_ok k).bind' hf
  rw [Rd.assoc, V8Rd.assoc] at this
  exact this

/-! ### Text -/

theorem readText_ok (dec : Bytes → Option Str) (k : Nat) :
    RdOk bd (readText dec k) (V8.readBytes k >>= fun bs => match dec bs with | some s => pure s | none => V8.throwD) := by
  have key : ∀ d p, readText dec k d p = if p + k > d.length then .error (throwFmt k, p) else
      match dec ((d.drop p).take k) with
      | some s => .ok (s, p + k)
      | none => .error (.decode, p) := by
    intro d p
    unfold readText
    rw [readBytes_eq]
    unfold taken
    by_cases h : p + k > d.length
    · simp only [if_pos h]
    · simp only [if_neg h, Nat.add_sub_cancel]
      cases dec ((d.drop p).take k) <;> rfl
  refine ⟨?_, ?_, ?_, ?_, ?_⟩
  · intro d p
    rw [key]
    by_cases h : p + k > d.length
    · rw [if_pos h, V8Rd.bind_err (e := throwFmt k) (by rw [readBytes_eq']; unfold taken'; simp only [if_pos h])]
      rfl
    · rw [if_neg h, V8Rd.bind_ok (a := (d.drop p).take k) (q := p + k) (by rw [readBytes_eq']; unfold taken'; simp only [if_neg h])]
      cases dec ((d.drop p).take k) <;> rfl
  · intro d p
    rw [key]
    split
    · exact ⟨fun b q hq => (by cases hq), fun b q hq => by cases hq; exact Nat.le_refl _⟩
    · split
      · exact ⟨fun b q hq => by cases hq; omega, fun b q hq => by cases hq⟩
      · exact ⟨fun b q hq => (by cases hq), fun b q hq => by cases hq; exact Nat.le_refl _⟩
  · intro _ d p hp
    rw [key]
    split
    · exact ⟨fun b q hq => (by cases hq), fun b q hq => by cases hq; exact hp⟩
    · split
      · exact ⟨fun b q hq => by cases hq; omega, fun b q hq => by cases hq⟩
      · exact ⟨fun b q hq => (by cases hq), fun b q hq => by cases hq; exact hp⟩
  · intro d p q hq
    rw [key] at hq
    split at hq
    · injection hq with hq; injection hq with hq _; exact throwFmt_ne k hq
    · split at hq <;> cases hq
  · intro d d' n p ha
    have late : n ≤ p + 3 → (∀ b r, readText dec k d' p = .ok (b, r) → n ≤ r + 3) ∧
        (∀ e r, readText dec k d' p = .error (e, r) → n ≤ r + 3) := by
      intro hle
      rw [key]
      split
      · exact ⟨fun b r hr => (by cases hr), fun e r hr => by cases hr; exact hle⟩
      · split
        · exact ⟨fun b r hr => by cases hr; omega, fun e r hr => by cases hr⟩
        · exact ⟨fun b r hr => (by cases hr), fun e r hr => by cases hr; exact hle⟩
    constructor
    · intro a q hq hn
      rw [key] at hq
      split at hq
      · cases hq
      · split at hq
        · rename_i s hs
          cases hq
          left
          have := ha.len
          rw [key, if_neg (by omega), ← slice_same ha hn, hs]
        · cases hq
    · intro e he
      apply late
      rw [key] at he
      split at he
      · cases he; omega
      · split at he
        · cases he
        · cases he; omega

/-! ### Varints -/

theorem varint_erase (mb : Option Nat) (st : Nat) (bs : Bytes) (o acc p last : Nat) :
    erase (readVarintLoop mb st bs o acc p last) = V8.readVarintLoop mb bs o acc p := by
  induction bs generalizing o acc p last with
  | nil => rfl
  | cons b bs ih =>
    unfold readVarintLoop V8.readVarintLoop
    simp only
    split
    · rfl
    · cases mb with
      | none => exact ih _ _ _ _
      | some m =>
        simp only
        split
        · rfl
        · exact ih _ _ _ _

theorem varint_bounds (mb : Option Nat) (st : Nat) (bs : Bytes) (o acc p last : Nat) (h1 : st ≤ last) (h2 : last ≤ p) :
    (∀ a q, readVarintLoop mb st bs o acc p last = .ok (a, q) → p < q ∧ q ≤ p + bs.length) ∧
    (∀ e q, readVarintLoop mb st bs o acc p last = .error (e, q) → e = .decode ∧ st ≤ q ∧ q ≤ p + bs.length) := by
  induction bs generalizing o acc p last with
  | nil =>
    unfold readVarintLoop
    exact ⟨fun a q hq => (by cases hq), fun e q hq => by cases hq; exact ⟨rfl, h1, by simpa using h2⟩⟩
  | cons b bs ih =>
    have h := fun o acc => ih o acc (p + 1) p (by omega) (by omega)
    unfold readVarintLoop
    simp only [List.length_cons]
    split
    · exact ⟨fun a q hq => by cases hq; omega, fun e q hq => by cases hq⟩
    · cases mb with
      | none =>
        simp only
        refine ⟨fun a q hq => ?_, fun e q hq => ?_⟩
        · have := (h _ _).1 a q hq; omega
        · have := (h _ _).2 e q hq
          exact ⟨this.1, this.2.1, by omega⟩
      | some m =>
        simp only
        split
        · exact ⟨fun a q hq => (by cases hq), fun e q hq => by cases hq; exact ⟨rfl, Nat.le_refl _, by omega⟩⟩
        · refine ⟨fun a q hq => ?_, fun e q hq => ?_⟩
          · have := (h _ _).1 a q hq; omega
          · have := (h _ _).2 e q hq
            exact ⟨this.1, this.2.1, by omega⟩

/-- An error is at the start or no earlier than the last byte seen. -/
theorem varint_err_at (mb : Option Nat) (st : Nat) (bs : Bytes) (o acc p last : Nat) (h2 : last ≤ p) (e : DErr) (q : Nat)
    (h : readVarintLoop mb st bs o acc p last = .error (e, q)) : (mb.isSome = true ∧ q = st) ∨ (last ≤ q ∧ (bs ≠ [] → p ≤ q ∧ ∀ m, mb = some m → o + 7 < m)) := by
  induction bs generalizing o acc p last with
  | nil =>
    unfold readVarintLoop at h
    cases h
    exact Or.inr ⟨Nat.le_refl _, fun hn => absurd rfl hn⟩
  | cons b bs ih =>
    have h0 : ∀ o' acc, readVarintLoop mb st bs o' acc (p + 1) p = .error (e, q) → (∀ m, mb = some m → o + 7 < m) →
        (mb.isSome = true ∧ q = st) ∨ (last ≤ q ∧ (b :: bs ≠ [] → p ≤ q ∧ ∀ m, mb = some m → o + 7 < m)) := by
      intro o acc h hm
      rcases ih o acc (p + 1) p (by omega) h with h' | h'
      · exact Or.inl h'
      · exact Or.inr ⟨by omega, fun _ => ⟨h'.1, hm⟩⟩
    unfold readVarintLoop at h
    simp only at h
    split at h
    · cases h
    · cases mb with
      | none => exact h0 _ _ h (fun m hm => by cases hm)
      | some m =>
        simp only at h
        split at h
        · cases h
          exact Or.inl ⟨rfl, rfl⟩
        · rename_i hc
          exact h0 _ _ h (fun m' hm => by cases hm; omega)

/-- The same bytes give the same varint. -/
theorem varint_same (mb : Option Nat) (st : Nat) (bs bs' : Bytes) (o acc p last q : Nat) (a : Nat) (h1 : st ≤ last) (h2 : last ≤ p)
    (h : readVarintLoop mb st bs o acc p last = .ok (a, q)) (hs : ∀ i, p + i < q → bs[i]? = bs'[i]?) :
    readVarintLoop mb st bs' o acc p last = .ok (a, q) := by
  induction bs generalizing bs' o acc p last with
  | nil => unfold readVarintLoop at h; cases h
  | cons b bs ih =>
    have hp := ((varint_bounds mb st (b :: bs) o acc p last h1 h2).1 a q h).1
    have hb := hs 0 (by omega)
    cases bs' with
    | nil => simp at hb
    | cons b' bs' =>
      simp only [List.getElem?_cons_zero, Option.some.injEq] at hb
      subst hb
      have hs' : ∀ i, p + 1 + i < q → bs[i]? = bs'[i]? := by
        intro i hi
        have := hs (i + 1) (by omega)
        simpa using this
      unfold readVarintLoop at h ⊢
      simp only at h ⊢
      split at h
      · rename_i hc
        rw [if_pos hc]
        exact h
      · rename_i hc
        rw [if_neg hc]
        cases mb with
        | none => exact ih bs' _ _ _ _ (by omega) (by omega) h hs'
        | some m =>
          simp only at h ⊢
          split at h
          · cases h
          · rename_i hm
            rw [if_neg hm]
            exact ih bs' _ _ _ _ (by omega) (by omega) h hs'

/-- Where a varint fails, other data with the same bytes up to there gets as far. -/
theorem varint_late (mb : Option Nat) (hmb : mb = none ∨ mb = some 32) (st : Nat) (bs bs' : Bytes) (o acc p last n : Nat) (e : DErr)
    (h1 : st ≤ last) (h2 : last ≤ p) (ho : o = 7 * (p - st)) (hl : last + 1 = p ∨ last = p ∧ p = st) (hom : mb.isSome = true → o < 32)
    (h : readVarintLoop mb st bs o acc p last = .error (e, n)) (hs : ∀ i, p + i < n → bs[i]? = bs'[i]?) (hlen : bs.length ≤ bs'.length) :
    (∀ b r, readVarintLoop mb st bs' o acc p last = .ok (b, r) → n ≤ r + 3) ∧
    (∀ e r, readVarintLoop mb st bs' o acc p last = .error (e, r) → n ≤ r + 3) := by
  induction bs generalizing bs' o acc p last with
  | nil =>
    unfold readVarintLoop at h
    cases h
    refine ⟨fun b r hr => ?_, fun e r hr => ?_⟩
    · have := ((varint_bounds mb st bs' o acc p _ h1 h2).1 b r hr).1; omega
    · rcases varint_err_at mb st bs' o acc p _ h2 e r hr with ⟨hm, hq⟩ | hq
      · have := hom hm; omega
      · omega
  | cons b bs ih =>
    cases bs' with
    | nil => simp at hlen
    | cons b' bs' =>
      have hst := (varint_bounds mb st (b :: bs) o acc p last h1 h2).2 e n h
      have hst' := varint_err_at mb st (b :: bs) o acc p last h2 e n h
      by_cases hpn : p < n
      · have hb := hs 0 (by omega)
        simp only [List.getElem?_cons_zero, Option.some.injEq] at hb
        subst hb
        have hs' : ∀ i, p + 1 + i < n → bs[i]? = bs'[i]? := by
          intro i hi
          have := hs (i + 1) (by omega)
          simpa using this
        have hlen' : bs.length ≤ bs'.length := by simpa using hlen
        unfold readVarintLoop at h ⊢
        simp only at h ⊢
        split at h
        · cases h
        · rename_i hc
          rw [if_neg hc]
          rcases hmb with rfl | rfl
          · exact ih bs' _ _ _ _ (by omega) (by omega) (by omega) (by omega) (by simp) h hs' hlen'
          · simp only at h ⊢
            split at h
            · cases h; omega
            · rename_i hm
              rw [if_neg hm]
              exact ih bs' _ _ _ _ (by omega) (by omega) (by omega) (by omega) (by omega) h hs' hlen'
      · refine ⟨fun c r hr => ?_, fun e' r hr => ?_⟩
        · have := ((varint_bounds mb st (b' :: bs') o acc p last h1 h2).1 c r hr).1; omega
        · rcases varint_err_at mb st (b' :: bs') o acc p last h2 e' r hr with ⟨hm, hq⟩ | hq
          · rcases hmb with rfl | rfl
            · cases hm
            · rcases hst' with h3 | h3
              · omega
              · have := (h3.2 (by simp)).2 32 rfl
                omega
          · have := (hq.2 (by simp)).1; omega

theorem readVarint_ok (mb : Option Nat) (hmb : mb = none ∨ mb = some 32) : RdOk bd (readVarint mb) (V8.readVarint mb) := by
  refine ⟨?_, ?_, ?_, ?_, ?_⟩
  · intro d p
    exact varint_erase mb p _ 0 0 p p
  · intro d p
    have := varint_bounds mb p (d.drop p) 0 0 p p (Nat.le_refl _) (Nat.le_refl _)
    exact ⟨fun a q h => Nat.le_of_lt (this.1 a q h).1, fun e q h => (this.2 e q h).2.1⟩
  · intro _ d p hp
    have := varint_bounds mb p (d.drop p) 0 0 p p (Nat.le_refl _) (Nat.le_refl _)
    rw [List.length_drop] at this
    exact ⟨fun a q h => by have := (this.1 a q h).2; omega, fun e q h => by have := (this.2 e q h).2.2; omega⟩
  · intro d p q h
    have := (varint_bounds mb p (d.drop p) 0 0 p p (Nat.le_refl _) (Nat.le_refl _)).2 _ q h
    exact absurd this.1 (by decide)
  · intro d d' n p ha
    have hs : ∀ m, m ≤ n → ∀ i, p + i < m → (d.drop p)[i]? = (d'.drop p)[i]? := by
      intro m hm i hi
      rw [List.getElem?_drop, List.getElem?_drop]
      exact ha.same _ (by omega)
    refine ⟨fun a q h hq => Or.inl ?_, fun e h => ?_⟩
    · exact varint_same mb p _ _ 0 0 p p q a (Nat.le_refl _) (Nat.le_refl _) h (hs q hq)
    · refine varint_late mb hmb p _ _ 0 0 p p n e (Nat.le_refl _) (Nat.le_refl _) (by simp) (Or.inr ⟨rfl, rfl⟩) (by simp) h (hs n (Nat.le_refl _)) ?_
      have := ha.len
      rw [List.length_drop, List.length_drop]
      omega

/-! ### Tags -/

theorem pad_cases (bs : Bytes) (p : Nat) :
    (∃ k, readPaddingLoop bs p = .ok ((), p + k) ∧ (∀ i < k, bs[i]? = some 0) ∧ ∃ b, b ≠ 0 ∧ bs[k]? = some b) ∨
    (readPaddingLoop bs p = .error (.decode, p + bs.length) ∧ ∀ i < bs.length, bs[i]? = some 0) := by
  induction bs generalizing p with
  | nil => exact Or.inr ⟨rfl, fun i hi => by simp at hi⟩
  | cons b bs ih =>
    unfold readPaddingLoop
    by_cases hb : b ≠ 0
    · rw [if_pos hb]
      exact Or.inl ⟨0, rfl, fun i hi => absurd hi (by omega), b, hb, rfl⟩
    · rw [if_neg hb]
      have hb0 : b = 0 := by simpa using hb
      rcases ih (p + 1) with ⟨k, h1, h2, c, h3, h4⟩ | ⟨h1, h2⟩
      · left
        refine ⟨k + 1, by rw [h1]; congr 2; omega, ?_, c, h3, by simpa using h4⟩
        intro i hi
        cases i with
        | zero => simp [hb0]
        | succ i => simpa using h2 i (by omega)
      · right
        refine ⟨by rw [h1, List.length_cons]; congr 2; omega, ?_⟩
        intro i hi
        cases i with
        | zero => simp [hb0]
        | succ i => simpa using h2 i (by simpa using hi)

theorem pad_erase (bs : Bytes) (p : Nat) : erase (readPaddingLoop bs p) = V8.readPaddingLoop bs p := by
  induction bs generalizing p with
  | nil => rfl
  | cons b bs ih =>
    unfold readPaddingLoop V8.readPaddingLoop
    split
    · rfl
    · exact ih (p + 1)

theorem readPadding_ok : RdOk bd readPadding V8.readPadding := by
  refine ⟨fun d p => pad_erase _ p, ?_, ?_, ?_, ?_⟩
  · intro d p
    unfold readPadding
    rcases pad_cases (d.drop p) p with ⟨k, h, _⟩ | ⟨h, _⟩ <;> rw [h]
    · exact ⟨fun a q hq => by cases hq; omega, fun e q hq => by cases hq⟩
    · exact ⟨fun a q hq => (by cases hq), fun e q hq => by cases hq; omega⟩
  · intro _ d p hp
    unfold readPadding
    rcases pad_cases (d.drop p) p with ⟨k, h, _, b, _, hk⟩ | ⟨h, _⟩ <;> rw [h]
    · refine ⟨fun a q hq => ?_, fun e q hq => by cases hq⟩
      cases hq
      have hk := (List.getElem?_eq_some_iff.1 hk).1
      rw [List.length_drop] at hk
      omega
    · refine ⟨fun a q hq => (by cases hq), fun e q hq => ?_⟩
      cases hq
      rw [List.length_drop]; omega
  · intro d p q hq
    unfold readPadding at hq
    rcases pad_cases (d.drop p) p with ⟨k, h, _⟩ | ⟨h, _⟩ <;> rw [h] at hq <;> cases hq
  · intro d d' n p ha
    have late : ∀ k, p + k ≤ n → n ≤ p + k + 3 → (∀ i < k, (d.drop p)[i]? = some 0) →
        (∀ b r, readPadding d' p = .ok (b, r) → n ≤ r + 3) ∧ (∀ e r, readPadding d' p = .error (e, r) → n ≤ r + 3) := by
      intro k hk hk' hz
      have hz' : ∀ i < k, (d'.drop p)[i]? = some 0 := by
        intro i hi
        rw [← hz i hi, List.getElem?_drop, List.getElem?_drop, ha.same _ (by omega)]
      unfold readPadding
      rcases pad_cases (d'.drop p) p with ⟨k', h, _, b, hb, hk2⟩ | ⟨h, hz2⟩ <;> rw [h]
      · have : k ≤ k' := by
          apply Decidable.byContradiction; intro hc
          rw [hz' k' (by omega)] at hk2
          cases hk2
          exact hb rfl
        exact ⟨fun a q hq => by cases hq; omega, fun e q hq => by cases hq⟩
      · have : k ≤ (d'.drop p).length := by
          apply Decidable.byContradiction; intro hc
          have := hz' (d'.drop p).length (by omega)
          simp at this
        exact ⟨fun a q hq => (by cases hq), fun e q hq => by cases hq; omega⟩
    rcases pad_cases (d.drop p) p with ⟨k, h, hz, b, hb, hk⟩ | ⟨h, hz⟩
    · refine ⟨fun a q hq hn => ?_, fun e he => ?_⟩
      · unfold readPadding at hq
        rw [h] at hq
        cases hq
        by_cases hlt : p + k < n
        · left
          unfold readPadding
          rcases pad_cases (d'.drop p) p with ⟨k', h', hz', b', hb', hk'⟩ | ⟨h', hz'⟩
          · have e1 : k' = k := by
              rcases Nat.lt_trichotomy k' k with hc | hc | hc
              · have := hz k' hc
                rw [List.getElem?_drop, ha.same _ (by omega), ← List.getElem?_drop, hk'] at this
                cases this; exact absurd rfl hb'
              · exact hc
              · have := hz' k hc
                rw [List.getElem?_drop, ← ha.same _ (by omega), ← List.getElem?_drop, hk] at this
                cases this; exact absurd rfl hb
            rw [h', e1]
          · exfalso
            rw [List.getElem?_drop, ha.same _ (by omega), ← List.getElem?_drop] at hk
            have hl := (List.getElem?_eq_some_iff.1 hk).1
            rw [hz' k hl] at hk
            cases hk; exact hb rfl
        · right
          exact late k hn (by omega) hz
      · unfold readPadding at he
        rw [h] at he
        cases he
    · refine ⟨fun a q hq hn => ?_, fun e he => ?_⟩
      · unfold readPadding at hq
        rw [h] at hq
        cases hq
      · unfold readPadding at he
        rw [h] at he
        cases he
        exact late (d.drop p).length (by omega) (by omega) hz

/-- The part of `read_tag` after the padding. -/
def tagHere (accept : Tag → Bool) : Rd Tag := fun d p =>
  match d[p]? with
  | none => .error (.py .indexError, p)
  | some b =>
    match Tag.ofByte b with
    | some t => if accept t then .ok (t, p + 1) else .error (.decode, p)
    | none => .error (.decode, p)

def tagHere' (accept : Tag → Bool) : V8.Rd Tag := fun d p =>
  match d[p]? with
  | none => .error (.py .indexError)
  | some b =>
    match Tag.ofByte b with
    | some t => if accept t then .ok (t, p + 1) else .error .decode
    | none => .error .decode

theorem tagHere_ok (accept : Tag → Bool) : RdOk bd (tagHere accept) (tagHere' accept) := by
  have hc : ∀ d p, (∃ t b, tagHere accept d p = .ok (t, p + 1) ∧ d[p]? = some b ∧ Tag.ofByte b = some t ∧ accept t = true) ∨
      ∃ e, e ≠ .unhandledTag ∧ tagHere accept d p = .error (e, p) := by
    intro d p
    unfold tagHere
    cases hb : d[p]? with
    | none => exact Or.inr ⟨_, by decide, rfl⟩
    | some b =>
      simp only
      cases ht : Tag.ofByte b with
      | none => exact Or.inr ⟨_, by decide, rfl⟩
      | some t =>
        simp only
        by_cases ha : accept t = true
        · rw [if_pos ha]; exact Or.inl ⟨t, b, rfl, rfl, ht, ha⟩
        · rw [if_neg ha]; exact Or.inr ⟨_, by decide, rfl⟩
  refine ⟨?_, ?_, ?_, ?_, ?_⟩
  · intro d p
    unfold tagHere tagHere'
    cases d[p]? with
    | none => rfl
    | some b =>
      simp only
      cases Tag.ofByte b with
      | none => rfl
      | some t => simp only; split <;> rfl
  · intro d p
    rcases hc d p with ⟨t, b, h, _⟩ | ⟨e, _, h⟩ <;> rw [h]
    · exact ⟨fun a q hq => by cases hq; omega, fun e q hq => by cases hq⟩
    · exact ⟨fun a q hq => (by cases hq), fun e q hq => by cases hq; omega⟩
  · intro _ d p hp
    rcases hc d p with ⟨t, b, h, hb, _⟩ | ⟨e, _, h⟩ <;> rw [h]
    · have := (List.getElem?_eq_some_iff.1 hb).1
      exact ⟨fun a q hq => by cases hq; omega, fun e q hq => by cases hq⟩
    · exact ⟨fun a q hq => (by cases hq), fun e q hq => by cases hq; omega⟩
  · intro d p q hq
    rcases hc d p with ⟨t, b, h, hb, _⟩ | ⟨e, he, h⟩ <;> rw [h] at hq <;> cases hq
    exact he rfl
  · intro d d' n p ha
    have late : n ≤ p + 3 → (∀ b r, tagHere accept d' p = .ok (b, r) → n ≤ r + 3) ∧
        (∀ e r, tagHere accept d' p = .error (e, r) → n ≤ r + 3) := by
      intro hn
      rcases hc d' p with ⟨t, b, h, _⟩ | ⟨e, _, h⟩ <;> rw [h]
      · exact ⟨fun a q hq => by cases hq; omega, fun e q hq => by cases hq⟩
      · exact ⟨fun a q hq => (by cases hq), fun e q hq => by cases hq; omega⟩
    rcases hc d p with ⟨t, b, h, hb, ht, hacc⟩ | ⟨e, _, h⟩ <;> rw [h]
    · refine ⟨fun a q hq hn => ?_, fun e he => (by cases he)⟩
      cases hq
      left
      rw [ha.same p (by omega)] at hb
      unfold tagHere
      rw [hb]
      simp only [ht, hacc, if_true]
    · refine ⟨fun a q hq hn => (by cases hq), fun e he => ?_⟩
      cases he
      exact late (by omega)

theorem readTag_eq (accept : Tag → Bool) : readTag accept = readPadding >>= fun _ => tagHere accept := by
  have tail : ∀ (b : UInt8) d p, d[p]? = some b →
      (match Tag.ofByte b with
        | some t => if accept t then (do advance (if true then 1 else 0); return t : Rd Tag) else throwD
        | none => throwD) d p = tagHere accept d p := by
    intro b d p hb
    unfold tagHere
    rw [hb]
    simp only
    cases Tag.ofByte b with
    | none => rfl
    | some t =>
      simp only
      split <;> rfl
  funext d p
  unfold readTag
  cases hd : d.drop p with
  | nil =>
    have hl : d.length ≤ p := List.drop_eq_nil_iff.1 hd
    have h1 : ensureCapacity 1 d p = .error (throwFmt 1, p) := by unfold ensureCapacity; rw [if_pos (by omega)]
    have h2 : readPadding d p = .error (.decode, p) := by unfold readPadding; rw [hd]; rfl
    rw [Rd.bind_err h1, Rd.bind_err h2, show throwFmt 1 = .decode by decide +kernel]
  | cons b bs =>
    have hb : d[p]? = some b := by rw [← Nat.add_zero p, ← List.getElem?_drop, hd]; rfl
    have hl := (List.getElem?_eq_some_iff.1 hb).1
    have h1 : ensureCapacity 1 d p = .ok ((), p) := by unfold ensureCapacity; rw [if_neg (by omega)]
    have h2 : byteHere d p = .ok (b, p) := by unfold byteHere; rw [hb]
    rw [Rd.bind_ok h1, Rd.bind_ok h2]
    by_cases h0 : b = 0
    · have hd1 : d.drop (p + 1) = bs := by
        rw [← List.drop_drop, hd]; rfl
      have hp : readPadding d p = readPaddingLoop bs (p + 1) := by
        unfold readPadding; rw [hd]; rw [readPaddingLoop, if_neg (by simpa using h0)]
      have hs : skipPadding b d p = (readPadding >>= fun _ => byteHere) d (p + 1) := by
        unfold skipPadding
        rw [if_pos (by rw [h0]; rfl)]
        rfl
      have hp' : readPadding d (p + 1) = readPaddingLoop bs (p + 1) := by unfold readPadding; rw [hd1]
      rcases pad_cases bs (p + 1) with ⟨k, hk, _, c, hc, hck⟩ | ⟨hk, _⟩
      · have hck' : d[p + 1 + k]? = some c := by rw [← List.getElem?_drop, hd1]; exact hck
        have : skipPadding b d p = .ok (c, p + 1 + k) := by
          rw [hs, Rd.bind_ok (by rw [hp', hk])]
          unfold byteHere; rw [hck']
        rw [Rd.bind_ok this, Rd.bind_ok (by rw [hp, hk])]
        exact tail c d _ hck'
      · have : skipPadding b d p = .error (.decode, p + 1 + bs.length) := by
          rw [hs, Rd.bind_err (by rw [hp', hk])]
        rw [Rd.bind_err this, Rd.bind_err (by rw [hp, hk])]
    · have hp : readPadding d p = .ok ((), p) := by
        unfold readPadding; rw [hd]; unfold readPaddingLoop; rw [if_pos h0]
      have hs : skipPadding b d p = .ok (b, p) := by
        unfold skipPadding
        rw [if_neg (by exact h0)]
        rfl
      rw [Rd.bind_ok hp, Rd.bind_ok hs]
      exact tail b d p hb

theorem readTag_erase (accept : Tag → Bool) (d : Bytes) (p : Nat) : erase (readTag accept true d p) = V8.readTag accept true d p := by
  have hadv : ∀ k, ∀ d p, erase (advance k d p) = V8.advance k d p := fun _ _ _ => rfl
  have hbind : ∀ {α β : Type} (x : Rd α) (z : V8.Rd α) (f : α → Rd β) (g : α → V8.Rd β),
      (∀ d p, erase (x d p) = z d p) → (∀ a d p, erase (f a d p) = g a d p) → ∀ d p, erase ((x >>= f) d p) = (z >>= g) d p := by
    intro α β x z f g hx hf d p
    have h1 := hx d p
    cases h : x d p with
    | ok r =>
      obtain ⟨a, q⟩ := r
      rw [h] at h1
      rw [Rd.bind_ok h, V8Rd.bind_ok h1.symm]
      exact hf a d q
    | error e =>
      rw [h] at h1
      rw [Rd.bind_err h, V8Rd.bind_err h1.symm]
      rfl
  revert d p
  unfold readTag V8.readTag
  refine hbind _ _ _ _ (ensureCapacity_ok (bd := true) 1).erase fun _ => hbind _ _ _ _ (byteHere_ok (bd := true)).erase fun b => hbind _ _ _ _ ?_ fun c => ?_
  · unfold skipPadding V8.skipPadding
    split
    · exact hbind _ _ _ _ (hadv 1) fun _ => hbind _ _ _ _ (readPadding_ok (bd := true)).erase fun _ => (byteHere_ok (bd := true)).erase
    · exact fun _ _ => rfl
  · intro d p
    cases Tag.ofByte c with
    | none => rfl
    | some t =>
      simp only
      by_cases ha : accept t = true
      · rw [if_pos ha, if_pos ha]; rfl
      · rw [if_neg ha, if_neg ha]; rfl

theorem readTag_ok (accept : Tag → Bool) : RdOk bd (readTag accept) (V8.readTag accept true) := by
  have h := (readPadding_ok (bd := bd)).bind' (fun _ => tagHere_ok accept)
  rw [← readTag_eq] at h
  exact ⟨readTag_erase accept, h.mono, h.bound, h.handled, h.sim⟩

/-- The byte before the position after a tag is that of the tag. -/
theorem readTag_byte (accept : Tag → Bool) (d : Bytes) (p : Nat) (t : Tag) (q : Nat) (h : readTag accept true d p = .ok (t, q)) :
    accept t = true ∧ ∃ b, 0 < q ∧ d[q - 1]? = some b ∧ Tag.ofByte b = some t := by
  rw [readTag_eq] at h
  cases hp : readPadding d p with
  | error e => rw [Rd.bind_err hp] at h; cases h
  | ok r =>
    obtain ⟨u, q'⟩ := r
    rw [Rd.bind_ok hp] at h
    unfold tagHere at h
    cases hb : d[q']? with
    | none => rw [hb] at h; cases h
    | some b =>
      rw [hb] at h
      simp only at h
      cases ht : Tag.ofByte b with
      | none => rw [ht] at h; cases h
      | some t' =>
        rw [ht] at h
        simp only at h
        by_cases ha : accept t' = true
        · rw [if_pos ha] at h
          cases h
          exact ⟨ha, b, by omega, by simpa using hb, ht⟩
        · rw [if_neg ha] at h
          cases h

/-! ### Composed readers -/

theorem readZigzag_ok (mb : Option Nat) (hmb : mb = none ∨ mb = some 32) : RdOk bd (readZigzag mb) (V8.readZigzag mb) :=
  (readVarint_ok mb hmb).bind' fun _ => RdOk.pure' _

theorem readInt32_ok : RdOk bd readInt32 V8.readInt32 :=
  (readZigzag_ok _ (Or.inr rfl)).bind' fun _ => RdOk.ite' (RdOk.pure' _) RdOk.throw'

theorem readUint32_ok : RdOk bd readUint32 V8.readUint32 :=
  (readVarint_ok _ (Or.inr rfl)).bind' fun _ => RdOk.ite' (RdOk.pure' _) RdOk.throw'

theorem readBigint_ok : RdOk bd readBigint V8.readBigint :=
  (readVarint_ok _ (Or.inl rfl)).bind' fun _ => (readBytes_ok _).bind' fun _ => RdOk.ite' (RdOk.pure' _) (RdOk.pure' _)

theorem readDouble_ok : RdOk bd readDouble V8.readDouble :=
  (ensureCapacity_ok _).bind' fun _ => (readBytes_ok _).bind' fun _ => RdOk.pure' _

theorem readStringOneByte_ok : RdOk bd readStringOneByte V8.readStringOneByte :=
  (readVarint_ok _ (Or.inl rfl)).bind' fun _ => (ensureCapacity_ok _).bind' fun _ => (readBytes_ok _).bind' fun _ => RdOk.pure' _

theorem readStringTwoByte_ok : RdOk bd readStringTwoByte V8.readStringTwoByte :=
  (readVarint_ok _ (Or.inl rfl)).bind' fun _ => readText_ok _ _

theorem readStringUtf8_ok : RdOk bd readStringUtf8 V8.readStringUtf8 :=
  (readVarint_ok _ (Or.inl rfl)).bind' fun _ => readText_ok _ _

theorem readHeader_ok : RdOk bd readHeader V8.readHeader :=
  (readTag_ok _).bind' fun _ => (readVarint_ok _ (Or.inl rfl)).bind' fun _ =>
    RdOk.ite' (RdOk.fail' _ (throwFmt_ne _)) (RdOk.pure' _)

theorem readPrimObj_ok (t : Tag) : RdOk bd (readPrimObj t) (V8.readPrimObj t) := by
  cases t <;> first
    | exact RdOk.fail' _ (by decide)
    | exact RdOk.pure' _
    | exact readDouble_ok.bind' fun _ => RdOk.pure' _
    | exact readBigint_ok.bind' fun _ => RdOk.pure' _
    | exact readStringUtf8_ok.bind' fun _ => RdOk.pure' _

theorem errTagOf_ok (code : Nat) : RdOk bd (errTagOf code) (V8.errTagOf code) := by
  unfold errTagOf V8.errTagOf
  cases ErrTag.ofCode code with
  | some t => exact RdOk.pure' _
  | none => exact byteHere_ok.bind' fun _ => RdOk.throw'

theorem readErrTag_ok : RdOk bd readErrTag V8.readErrTag :=
  (ensureCapacity_ok _).bind' fun _ => (readVarint_ok _ (Or.inl rfl)).bind' fun _ => errTagOf_ok _

theorem readAfterName_ok (t : ErrTag) : RdOk bd (readAfterName t) (V8.readAfterName t) :=
  RdOk.ite' readErrTag_ok (RdOk.pure' _)

theorem readFixedContents_ok : RdOk bd readFixedContents V8.readFixedContents :=
  readUint32_ok.bind' fun _ => fit_ok _

theorem nodeViewTag_ok (c : Nat) : RdOk bd (nodeViewTag c) (V8.nodeViewTag c) := by
  unfold nodeViewTag V8.nodeViewTag
  cases nodeViewOfCode c with
  | some t => exact RdOk.pure' _
  | none => exact RdOk.throw'

theorem readNodeContents_ok : RdOk bd readNodeContents V8.readNodeContents :=
  readUint32_ok.bind' fun _ => readUint32_ok.bind' fun _ => (nodeViewTag_ok _).bind' fun _ => fitThen_ok _ fun _ => RdOk.pure' _

theorem peakIsView_ok : RdOk bd peakIsView V8.peakIsView := peakTag_ok.bind' fun _ => RdOk.pure' _

theorem checkFitsResizable_ok (n : Nat) : RdOk bd (checkFitsResizable n) (V8.checkFitsResizable n) := by
  refine RdOk.still ?_ ?_ ?_
  · intro d p
    unfold checkFitsResizable V8.checkFitsResizable
    split <;> rfl
  · intro d p
    unfold checkFitsResizable
    split
    · exact Or.inr ⟨_, by decide, rfl⟩
    · exact Or.inl ⟨_, rfl⟩
  · intro d d' p hl _ ⟨a, h⟩
    unfold checkFitsResizable at h ⊢
    split at h
    · cases h
    · rw [if_neg (by omega), if_neg (by omega)]

theorem takeHere_ok (k : Nat) : RdOk false (takeHere k) (V8.takeHere k) := by
  refine ⟨fun _ _ => rfl, ?_, fun h => (by cases h), ?_, ?_⟩
  · intro d p
    exact ⟨fun a q hq => by cases hq; omega, fun e q hq => by cases hq⟩
  · intro d p q hq
    cases hq
  · intro d d' n p ha
    refine ⟨fun a q hq hn => ?_, fun e he => by cases he⟩
    cases hq
    left
    show (.ok ((d'.drop p).take k, p + k) : Except PErr (Bytes × Nat)) = _
    rw [slice_same ha hn]

theorem readResizableContents_ok : RdOk false readResizableContents V8.readResizableContents :=
  readUint32_ok.bind' fun _ => (checkFitsResizable_ok _).bind' fun _ => readUint32_ok.bind' fun _ =>
    (RdOk.ite' RdOk.throw' (RdOk.pure' _)).bind' fun _ => (takeHere_ok _).bind' fun _ => RdOk.pure' _

theorem peakIsView_bound (d : Bytes) (p : Nat) (b : Bool) (q : Nat) (h : peakIsView d p = .ok (b, q)) : q = p ∧ p ≤ d.length := by
  cases hp : peakTag d p with
  | error e =>
    unfold peakIsView at h
    rw [Rd.bind_err hp] at h
    cases h
  | ok r =>
    obtain ⟨t, q'⟩ := r
    unfold peakIsView at h
    rw [Rd.bind_ok hp] at h
    cases h
    unfold peakTag at hp
    split at hp
    · cases hp; exact ⟨rfl, by omega⟩
    · split at hp
      · rename_i b hb
        cases hp
        have := (List.getElem?_eq_some_iff.1 hb).1
        exact ⟨rfl, by omega⟩
      · cases hp

theorem peakIsView_err (d : Bytes) (p : Nat) (e : DErr) (q : Nat) (h : peakIsView d p = .error (e, q)) : e = .py .indexError := by
  cases hp : peakTag d p with
  | error e =>
    unfold peakIsView at h
    rw [Rd.bind_err hp] at h
    cases h
    unfold peakTag at hp
    split at hp
    · cases hp
    · split at hp
      · cases hp
      · cases hp; rfl
  | ok r =>
    obtain ⟨t, q'⟩ := r
    unfold peakIsView at h
    rw [Rd.bind_ok hp] at h
    cases h

end V8.Pos
