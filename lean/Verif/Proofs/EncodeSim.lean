import Verif.Spec.SameForm
import Verif.Proofs.EncodeFuel
import Verif.Proofs.NumInj

/-! Helper lemmas: two encoders on graphs of the same form stay in step. -/

namespace V8
open Spec

/-! ## The cache of `deduplicate` -/

/-- What `deduplicate` returns for a value. -/
def rep (env : EEnv) (m : Dict DKey Val) (v : Val) : Val :=
  match dkey env v with
  | none => v
  | some k => (Dict.get m k).getD v

/-- The cache afterwards. -/
def memoStep (env : EEnv) (m : Dict DKey Val) (v : Val) : Dict DKey Val :=
  match dkey env v with
  | none => m
  | some k =>
    match Dict.get m k with
    | some _ => m
    | none => Dict.set m k v

theorem dedup_rep (env : EEnv) (v : Val) (ws : WS) :
    deduplicate env v ws = (rep env ws.memo v, { ws with memo := memoStep env ws.memo v }) := by
  unfold deduplicate rep memoStep
  cases dkey env v with
  | none => rfl
  | some k =>
    simp only
    cases Dict.get ws.memo k <;> rfl

theorem get_memoStep {env : EEnv} {m : Dict DKey Val} {v : Val} {k : DKey} (h : dkey env v = some k) (k' : DKey) :
    Dict.get (memoStep env m v) k' = if k' = k then some (rep env m v) else Dict.get m k' := by
  unfold memoStep rep
  rw [h]
  simp only
  cases hg : Dict.get m k with
  | some w =>
    simp only [Option.getD_some]
    by_cases hk : k' = k
    · rw [if_pos hk, hk, hg]
    · rw [if_neg hk]
  | none =>
    simp only [Option.getD_none]
    rw [Dict.get_set]
    by_cases hk : k' = k
    · simp [hk]
    · simp [hk, Ne.symm hk]

/-- Two values share an entry of the cache. -/
def SameKey (env : EEnv) (a b : Val) : Prop := ∃ k, dkey env a = some k ∧ dkey env b = some k

theorem rep_memoStep_twin {env : EEnv} {m : Dict DKey Val} {a b : Val} (h : SameKey env a b) :
    rep env (memoStep env m a) b = rep env m a := by
  obtain ⟨k, ha, hb⟩ := h
  conv => lhs; unfold rep
  rw [hb]
  simp only
  rw [get_memoStep ha, if_pos rfl]
  rfl

theorem rep_memoStep_other {env : EEnv} {m : Dict DKey Val} {a b : Val} (h : ¬ SameKey env a b) :
    rep env (memoStep env m a) b = rep env m b := by
  unfold rep
  cases hb : dkey env b with
  | none => rfl
  | some k =>
    simp only
    cases ha : dkey env a with
    | none => unfold memoStep; rw [ha]
    | some k' =>
      rw [get_memoStep ha, if_neg]
      rintro rfl
      exact h ⟨_, ha, hb⟩

theorem get_zero_memoStep {env : EEnv} {m : Dict DKey Val} {a : Val} (h : dkey env a ≠ some .zero) :
    Dict.get (memoStep env m a) .zero = Dict.get m .zero := by
  cases ha : dkey env a with
  | none => unfold memoStep; rw [ha]
  | some k =>
    rw [get_memoStep ha, if_neg]
    rintro rfl
    exact h ha

/-- An object, or `bytes`: what is recorded. -/
def Val.IsRef : Val → Prop
  | .obj _ => True
  | .bytes _ => True
  | _ => False

theorem twin_iff {env : EEnv} {a b : Val} (ha : a.IsRef) (hb : b.IsRef) : OneObject env a b ↔ a = b ∨ SameKey env a b := by
  constructor
  · rintro (h | ⟨i, j, rfl, rfl, h | ⟨c, h1, h2⟩⟩)
    · exact .inl h
    · exact .inl (by rw [h])
    · exact .inr ⟨.cls c, by simp [dkey, h1], by simp [dkey, h2]⟩
  · rintro (h | ⟨k, h1, h2⟩)
    · exact .inl h
    · cases a with
      | obj i =>
        cases b with
        | obj j =>
          simp only [dkey, Option.map_eq_some_iff] at h1 h2
          obtain ⟨c, h1, rfl⟩ := h1
          obtain ⟨c', h2, h3⟩ := h2
          cases h3
          exact .inr ⟨i, j, rfl, rfl, .inr ⟨c, h1, h2⟩⟩
        | bytes _ => cases h2
        | _ => cases hb
      | bytes _ => cases h1
      | _ => cases ha

theorem not_zero {env : EEnv} {a : Val} (ha : a.IsRef) : dkey env a ≠ some .zero := by
  cases a with
  | obj i =>
    simp only [dkey]
    cases env.hkey i <;> simp
  | bytes _ => simp [dkey]
  | _ => cases ha

section
variable {e e' : EEnv} {R : Val → Val → Prop}

theorem Spec.SameForm.refs (H : SameForm e e' R) {a b : Val} (h : R a b) : a.IsRef ∧ b.IsRef := by
  obtain ⟨n, n', h1, h2, _⟩ := H.content h
  constructor
  · cases a <;> simp [contents] at h1 <;> trivial
  · cases b <;> simp [contents] at h2 <;> trivial

/-- The caches correspond. -/
structure MemoSim (e e' : EEnv) (R : Val → Val → Prop) (m m' : Dict DKey Val) : Prop where
  reps : ∀ {a b}, R a b → R (rep e m a) (rep e' m' b)
  zero : Dict.get m .zero = Dict.get m' .zero
  float : ∀ {w}, Dict.get m .zero = some w → ∃ x, w = .float x

theorem SameFormVal.scalar {v w : Val} (h : SameFormVal R v w) (hv : ¬ v.IsRef) :
    v = w ∨ ∃ n x, v = .int n ∧ w = .float x ∧ ¬ (-2 ^ 31 ≤ n ∧ n < 2 ^ 32) ∧ n.natAbs ≤ 2 ^ 53 - 1 ∧
      fval x = .fin (n * 2 ^ 1074) := by
  cases v with
  | obj i => exact absurd trivial hv
  | bytes b => exact absurd trivial hv
  | int n =>
    cases w with
    | float x => exact .inr ⟨n, x, rfl, rfl, h.1, h.2.1, h.2.2⟩
    | _ => exact .inl h
  | _ => exact .inl h

theorem SameFormVal.same {v : Val} (hv : ¬ v.IsRef) : SameFormVal R v v := by
  cases v with
  | obj i => exact absurd trivial hv
  | bytes b => exact absurd trivial hv
  | _ => exact rfl

theorem SameFormVal.ref {v w : Val} (hv : v.IsRef) : SameFormVal R v w ↔ R v w := by
  cases v with
  | obj i => exact Iff.rfl
  | bytes b => exact Iff.rfl
  | _ => cases hv

theorem MemoSim.step_ref (H : SameForm e e' R) {m m' : Dict DKey Val} (h : MemoSim e e' R m m') {a b : Val} (hab : R a b) :
    MemoSim e e' R (memoStep e m a) (memoStep e' m' b) where
  reps := by
    intro a1 b1 h1
    have ra := H.refs hab
    have r1 := H.refs h1
    have tw := H.twins hab h1
    rw [twin_iff ra.1 r1.1, twin_iff ra.2 r1.2] at tw
    by_cases t : SameKey e a a1
    · rw [rep_memoStep_twin t]
      by_cases t' : SameKey e' b b1
      · rw [rep_memoStep_twin t']; exact h.reps hab
      · rw [rep_memoStep_other t']
        have hb : b = b1 := (tw.1 (.inr t)).resolve_right t'
        have ha := (H.one hab h1).2 hb
        rw [ha]
        exact h.reps h1
    · rw [rep_memoStep_other t]
      by_cases t' : SameKey e' b b1
      · rw [rep_memoStep_twin t']
        have ha : a = a1 := (tw.2 (.inr t')).resolve_right t
        have hb := (H.one hab h1).1 ha
        rw [hb]
        exact h.reps h1
      · rw [rep_memoStep_other t']; exact h.reps h1
  zero := by
    rw [get_zero_memoStep (not_zero (H.refs hab).1), get_zero_memoStep (not_zero (H.refs hab).2)]
    exact h.zero
  float := by
    rw [get_zero_memoStep (not_zero (H.refs hab).1)]
    exact h.float

/-- After `deduplicate`, values of the same form have the same form, and the caches correspond. -/
theorem MemoSim.step (H : SameForm e e' R) {m m' : Dict DKey Val} (h : MemoSim e e' R m m') {v w : Val} (hv : SameFormVal R v w) :
    SameFormVal R (rep e m v) (rep e' m' w) ∧ MemoSim e e' R (memoStep e m v) (memoStep e' m' w) := by
  by_cases hr : v.IsRef
  · have hR := (SameFormVal.ref hr).1 hv
    have h1 := h.reps hR
    exact ⟨(SameFormVal.ref (H.refs h1).1).2 h1, h.step_ref H hR⟩
  · have nokey : ∀ {v w : Val}, dkey e v = none → dkey e' w = none → SameFormVal R v w →
        SameFormVal R (rep e m v) (rep e' m' w) ∧ MemoSim e e' R (memoStep e m v) (memoStep e' m' w) := by
      intro v w h1 h2 h3
      unfold rep memoStep
      rw [h1, h2]
      exact ⟨h3, h⟩
    rcases SameFormVal.scalar hv hr with rfl | ⟨n, x, rfl, rfl, h1, h2, h3⟩
    · cases v with
      | float x =>
        by_cases hz : fval x = .fin 0
        · have k1 : dkey e (.float x) = some .zero := by simp [dkey, hz]
          have k2 : dkey e' (.float x) = some .zero := by simp [dkey, hz]
          have hrep : rep e m (.float x) = rep e' m' (.float x) := by
            unfold rep; rw [k1, k2]; simp only [h.zero]
          have hfl : ∃ y, rep e m (.float x) = .float y := by
            unfold rep
            rw [k1]
            simp only
            cases hg : Dict.get m .zero with
            | none => exact ⟨x, rfl⟩
            | some w => obtain ⟨y, rfl⟩ := h.float hg; exact ⟨y, rfl⟩
          refine ⟨?_, ?_, ?_, ?_⟩
          · rw [← hrep]
            obtain ⟨y, hy⟩ := hfl
            rw [hy]
            exact rfl
          · intro a b hab
            rw [rep_memoStep_other, rep_memoStep_other]
            · exact h.reps hab
            · rintro ⟨k, h1, h2⟩
              rw [k2] at h1; cases h1
              exact not_zero (H.refs hab).2 h2
            · rintro ⟨k, h1, h2⟩
              rw [k1] at h1; cases h1
              exact not_zero (H.refs hab).1 h2
          · rw [get_memoStep k1, get_memoStep k2, if_pos rfl, if_pos rfl, hrep]
          · intro w hw
            rw [get_memoStep k1, if_pos rfl] at hw
            cases hw
            exact hfl
        · exact nokey (by simp [dkey, hz]) (by simp [dkey, hz]) rfl
      | obj i => exact absurd trivial hr
      | bytes b => exact absurd trivial hr
      | _ => exact nokey rfl rfl rfl
    · refine nokey rfl ?_ ⟨h1, h2, h3⟩
      have hn : n ≠ 0 := by omega
      have : fval x ≠ .fin 0 := by
        rw [h3]
        intro h
        injection h with h
        exact absurd h (Int.mul_ne_zero hn (by positivity))
      simp [dkey, this]

/-! ## The log -/

/-- The logs correspond. -/
structure LogSim (R : Val → Val → Prop) (l l' : ObjLog) : Prop where
  ids : ∀ {a b}, R a b → Dict.get l.ids a = Dict.get l'.ids b
  len : l.slots.length = l'.slots.length
  fwd : ∀ n : Nat, l.slots[n]? = some (.fwd none) ↔ l'.slots[n]? = some (.fwd none)

theorem LogSim.record (H : SameForm e e' R) {l l' : ObjLog} (h : LogSim R l l') {a b : Val} (hab : R a b) :
    LogSim R (l.record a).1 (l'.record b).1 where
  ids := by
    intro a1 b1 h1
    show Dict.get (Dict.set _ _ _) _ = Dict.get (Dict.set _ _ _) _
    rw [Dict.get_set, Dict.get_set, h.len, h.ids h1]
    by_cases hc : a = a1
    · rw [if_pos hc, if_pos ((H.one hab h1).1 hc)]
    · rw [if_neg hc, if_neg (fun hb => hc ((H.one hab h1).2 hb))]
  len := by simp [ObjLog.record, h.len]
  fwd := by
    intro n
    simp only [ObjLog.record, List.getElem?_append, h.len]
    split
    · exact h.fwd n
    · cases hx : n - l'.slots.length <;> simp

theorem LogSim.setFwd {l l' : ObjLog} (h : LogSim R l l') (n : Nat) (o o' : Option Val) (ho : o = none ↔ o' = none) :
    LogSim R ⟨l.ids, l.slots.set n (.fwd o)⟩ ⟨l'.ids, l'.slots.set n (.fwd o')⟩ where
  ids := h.ids
  len := by simp [h.len]
  fwd := by
    intro k
    simp only [List.getElem?_set, h.len]
    by_cases hn : n = k
    · simp only [hn, if_true]
      split
      · simp [ho]
      · simp
    · simp only [hn, if_false]; exact h.fwd k

theorem LogSim.contains {l l' : ObjLog} (h : LogSim R l l') {a b : Val} (hab : R a b) : l.contains a = l'.contains b := by
  unfold ObjLog.contains; rw [h.ids hab]

theorem LogSim.getId {l l' : ObjLog} (h : LogSim R l l') {a b : Val} (hab : R a b) : l.getId a = l'.getId b := by
  unfold ObjLog.getId
  rw [h.ids hab]
  cases Dict.get l'.ids b with
  | none => rfl
  | some n =>
    simp only
    have := h.fwd n
    by_cases hf : l.slots[n]? = some (.fwd none)
    · rw [hf, this.1 hf]
    · have hf' := fun h' => hf (this.2 h')
      split
      · rename_i h1; exact absurd h1 hf
      · cases hs : l'.slots[n]? with
        | none => rfl
        | some s =>
          cases s with
          | obj _ => rfl
          | fwd o =>
            cases o with
            | none => exact absurd hs hf'
            | some _ => rfl

/-! ## The stream -/

/-- The states correspond.  Only objects are in the logs. -/
structure SimSt (e e' : EEnv) (R : Val → Val → Prop) (ws ws' : WS) : Prop where
  data : ws.data = ws'.data
  allowed : ws.allowed = ws'.allowed
  skew : ws.skew = ws'.skew
  bad : ws.badRef = ws'.badRef
  log : LogSim R ws.log ws'.log
  memo : MemoSim e e' R ws.memo ws'.memo
  only : ∀ v, (ws.log.contains v = true → v.IsRef) ∧ (ws'.log.contains v = true → v.IsRef)

/-- The results correspond. -/
def SimRes (e e' : EEnv) (R : Val → Val → Prop) : Except EErr WS → Except EErr WS → Prop
  | .ok a, .ok b => SimSt e e' R a b
  | .error x, .error y => x = y
  | _, _ => False

/-- The writers do the same. -/
def InStep (e e' : EEnv) (R : Val → Val → Prop) (w w' : Wr) : Prop :=
  ∀ ws ws', SimSt e e' R ws ws' → SimRes e e' R (w ws) (w' ws')

theorem InStep.bind {f f' : Wr} {g g' : WS → Except EErr WS} (hf : InStep e e' R f f') (hg : InStep e e' R g g') :
    InStep e e' R (fun ws => f ws >>= g) (fun ws => f' ws >>= g') := by
  intro ws ws' h
  have h1 := hf ws ws' h
  cases hx : f ws with
  | error x =>
    rw [hx] at h1
    cases hy : f' ws' with
    | error y => rw [hy] at h1; simp only [hx, hy]; exact h1
    | ok b => rw [hy] at h1; exact h1.elim
  | ok a =>
    rw [hx] at h1
    cases hy : f' ws' with
    | error y => rw [hy] at h1; exact h1.elim
    | ok b => rw [hy] at h1; simp only [hx, hy]; exact hg a b h1

theorem sim_done : InStep e e' R (fun ws => .ok ws) (fun ws => .ok ws) := fun _ _ h => h

theorem sim_fail (x : EErr) : InStep e e' R (fun _ => .error x) (fun _ => .error x) := fun _ _ _ => rfl

theorem sim_emit (bs : Bytes) : InStep e e' R (emit bs) (emit bs) := fun _ _ h =>
  { h with data := by simp [h.data] }

theorem sim_emitE (r : Except EErr Bytes) : InStep e e' R (emitE r) (emitE r) := by
  intro ws ws' h
  unfold emitE
  cases r with
  | ok bs => exact sim_emit bs ws ws' h
  | error x => rfl

theorem sim_allow {c : Option TagConstraint} {ws ws' : WS} (h : SimSt e e' R ws ws') :
    SimSt e e' R { ws with allowed := c } { ws' with allowed := c } := { h with allowed := rfl }

theorem sim_tag (t : Tag) : InStep e e' R (writeTag t) (writeTag t) := by
  intro ws ws' h
  unfold writeTag
  rw [h.allowed]
  cases ws'.allowed with
  | none => exact sim_emit _ _ _ h
  | some c =>
    simp only
    split
    · exact sim_emit _ _ _ h
    · rfl

theorem sim_tagged (t : Tag) (r : Except EErr Bytes) : InStep e e' R (writeTagged t r) (writeTagged t r) := by
  intro ws ws' h
  unfold writeTagged
  cases r with
  | ok bs => exact (sim_tag t).bind (sim_emit bs) ws ws' h
  | error x => rfl

theorem sim_constant (t : Tag) : InStep e e' R (writeConstant t) (writeConstant t) := by
  intro ws ws' h
  exact InStep.bind (f := fun ws => writeTag t { ws with allowed := some jsConstantTags })
    (f' := fun ws => writeTag t { ws with allowed := some jsConstantTags })
    (fun a b h => sim_tag t _ _ (sim_allow h)) (g := fun ws => .ok { ws with allowed := none })
    (g' := fun ws => .ok { ws with allowed := none }) (fun a b h => sim_allow h) ws ws' h

theorem sim_double (x : F64) : InStep e e' R (writeDoubleTagged x) (writeDoubleTagged x) :=
  (sim_tag _).bind (sim_emit _)

theorem sim_mark : InStep e e' R markSkew markSkew := fun _ _ h =>
  { h with skew := by simp only [h.skew, h.log.len] }

theorem sim_note (n : Nat) : InStep e e' R (noteRef n) (noteRef n) := fun _ _ h =>
  { h with bad := by simp only [h.skew, h.bad] }

theorem contains_only {l : ObjLog} {a : Val} (ha : a.IsRef) (h : ∀ v, l.contains v = true → v.IsRef) (v : Val) :
    (l.record a).1.contains v = true → v.IsRef := by
  intro hv
  unfold ObjLog.contains ObjLog.record at hv
  simp only at hv
  rw [Dict.get_set] at hv
  by_cases hc : a = v
  · rw [← hc]; exact ha
  · rw [if_neg hc] at hv; exact h v hv

section
variable (H : SameForm e e' R)
include H

theorem sim_record {a b : Val} (hab : R a b) : InStep e e' R (recordRef a) (recordRef b) := fun _ _ h =>
  { h with
    log := h.log.record H hab
    only := fun v => ⟨contains_only (H.refs hab).1 (fun v => (h.only v).1) v,
      contains_only (H.refs hab).2 (fun v => (h.only v).2) v⟩ }

theorem sim_begin {a b : Val} (hab : R a b) {ws ws' : WS} (h : SimSt e e' R ws ws') :
    (ws.log.beginAcyclic a).2 = (ws'.log.beginAcyclic b).2 ∧
    SimSt e e' R { ws with log := (ws.log.beginAcyclic a).1 } { ws' with log := (ws'.log.beginAcyclic b).1 } := by
  refine ⟨h.log.len, ?_⟩
  have h1 := sim_record H hab ws ws' h
  refine { h1 with log := ?_ }
  show LogSim R ⟨_, List.set _ ws.log.slots.length (.fwd none)⟩ ⟨_, List.set _ ws'.log.slots.length (.fwd none)⟩
  rw [h.log.len]
  exact h1.log.setFwd _ none none Iff.rfl

omit H in
theorem sim_end (n : Nat) (a b : Val) {ws ws' : WS} (h : SimSt e e' R ws ws') :
    SimSt e e' R { ws with log := ws.log.endAcyclic n a } { ws' with log := ws'.log.endAcyclic n b } :=
  { h with log := h.log.setFwd n (some a) (some b) (by simp) }

omit H in
theorem sim_reference {a b : Val} (hab : R a b) : InStep e e' R (writeReference a) (writeReference b) := by
  intro ws ws' h
  unfold writeReference
  rw [h.log.getId hab]
  cases ws'.log.getId b with
  | error x => rfl
  | ok n => exact (sim_note n).bind ((sim_tag _).bind (sim_emit _)) ws ws' h

variable {rec rec' : Val → Wr} (hr : ∀ v w, SameFormVal R v w → InStep e e' R (rec v) (rec' w))

section
include hr
omit H

theorem sim_vals : ∀ {l l' : List Val}, List.Forall₂ (SameFormVal R) l l' → InStep e e' R (writeVals rec l) (writeVals rec' l')
  | [], [], .nil => sim_done
  | _ :: _, _ :: _, .cons h t => (hr _ _ h).bind (sim_vals t)

theorem sim_entries : ∀ {l l' : List (Val × Val)},
    List.Forall₂ (fun a b => SameFormVal R a.1 b.1 ∧ SameFormVal R a.2 b.2) l l' → InStep e e' R (writeEntries rec l) (writeEntries rec' l')
  | [], [], .nil => sim_done
  | (_, _) :: _, (_, _) :: _, .cons h t => (hr _ _ h.1).bind ((hr _ _ h.2).bind (sim_entries t))

theorem sim_key {k k' : Val} (h : SameFormVal R k k') : InStep e e' R (writeKey rec k) (writeKey rec' k') :=
  InStep.bind (f := fun ws => rec k { ws with allowed := some jsObjectKeyTags })
    (f' := fun ws => rec' k' { ws with allowed := some jsObjectKeyTags })
    (fun _ _ hs => hr _ _ h _ _ (sim_allow hs)) (g := fun ws => .ok { ws with allowed := none })
    (g' := fun ws => .ok { ws with allowed := none }) (fun _ _ h => sim_allow h)

theorem sim_props : ∀ {l l' : List (Val × Val)},
    List.Forall₂ (fun a b => SameFormVal R a.1 b.1 ∧ SameFormVal R a.2 b.2) l l' → InStep e e' R (writeProps rec l) (writeProps rec' l')
  | [], [], .nil => sim_done
  | (_, _) :: _, (_, _) :: _, .cons h t => (sim_key hr h.1).bind ((hr _ _ h.2).bind (sim_props t))

theorem sim_objectProps {l l' : List (Val × Val)} (h : List.Forall₂ (fun a b => SameFormVal R a.1 b.1 ∧ SameFormVal R a.2 b.2) l l')
    (t : Tag) : InStep e e' R (writeObjectProps rec l t) (writeObjectProps rec' l' t) := by
  unfold writeObjectProps
  rw [h.length_eq]
  exact (sim_props hr h).bind ((sim_tag t).bind (sim_emit _))

end

include hr

theorem sim_dense {x y : Val} (hxy : R x y) {els els' : List Val} (h : List.Forall₂ (SameFormVal R) els els')
    {ps ps' : List (Val × Val)} (hp : List.Forall₂ (fun a b => SameFormVal R a.1 b.1 ∧ SameFormVal R a.2 b.2) ps ps') :
    InStep e e' R (writeDenseArray rec els ps x) (writeDenseArray rec' els' ps' y) := by
  unfold writeDenseArray
  rw [h.length_eq, hp.length_eq]
  exact (sim_record H hxy).bind ((sim_tag _).bind ((sim_emit _).bind ((sim_vals hr h).bind ((sim_props hr hp).bind
    ((sim_tag _).bind ((sim_emit _).bind (sim_emit _)))))))

theorem sim_sparse {x y : Val} (hxy : R x y) {ps ps' : List (Val × Val)}
    (hp : List.Forall₂ (fun a b => SameFormVal R a.1 b.1 ∧ SameFormVal R a.2 b.2) ps ps') (n : Int) :
    InStep e e' R (writeSparseArray rec ps n x) (writeSparseArray rec' ps' n y) := by
  intro ws ws' h
  unfold writeSparseArray
  split
  · rfl
  · exact (sim_record H hxy).bind ((sim_tag _).bind ((sim_emit _).bind ((sim_objectProps hr hp _).bind (sim_emit _)))) ws ws' h

theorem sim_cause (c : Bool) {x y : Val} (hxy : R x y) {cause cause' : Val} (h : SameFormVal R cause cause') :
    InStep e e' R (writeCause c rec x cause) (writeCause c rec' y cause') := by
  refine InStep.bind (sim_emit _) ?_
  intro ws ws' hs
  cases c with
  | true => exact (sim_record H hxy).bind (hr _ _ h) ws ws' hs
  | false =>
    simp only [Bool.false_eq_true, if_false]
    obtain ⟨h1, h2⟩ := sim_begin H hxy hs
    have h3 := hr _ _ h _ _ h2
    rw [h1]
    cases ha : rec cause { ws with log := (ws.log.beginAcyclic x).1 } with
    | error p =>
      rw [ha] at h3
      cases hb : rec' cause' { ws' with log := (ws'.log.beginAcyclic y).1 } with
      | error q => rw [hb] at h3; show acyclicExc _ p = acyclicExc _ q; rw [show p = q from h3]
      | ok q => rw [hb] at h3; exact h3.elim
    | ok p =>
      rw [ha] at h3
      cases hb : rec' cause' { ws' with log := (ws'.log.beginAcyclic y).1 } with
      | error q => rw [hb] at h3; exact h3.elim
      | ok q => rw [hb] at h3; exact sim_end _ x y h3

omit hr in
theorem alike_null {v w : Val} (h : SameFormVal R v w) : v = .null ↔ w = .null := by
  by_cases hv : v.IsRef
  · have := H.refs ((SameFormVal.ref hv).1 h)
    constructor
    · rintro rfl; cases hv
    · rintro rfl; cases this.2
  · rcases SameFormVal.scalar h hv with rfl | ⟨_, _, rfl, rfl, _⟩
    · exact Iff.rfl
    · simp

omit H hr in
theorem sim_errText (t : ErrTag) (s : Option Str) : InStep e e' R (writeErrText t s) (writeErrText t s) := by
  intro ws ws' h
  unfold writeErrText
  cases s with
  | none => exact h
  | some s => exact (sim_emit _).bind (sim_tagged _ _) ws ws' h

omit H hr in
theorem sim_errProto {name name' : Str} (h : ErrName.forName name = ErrName.forName name') :
    InStep e e' R (writeErrProto name) (writeErrProto name') := by
  intro ws ws' hs
  unfold writeErrProto
  rw [h]
  cases (ErrName.forName name').tag with
  | none => exact hs
  | some t => exact sim_emit _ _ _ hs

theorem sim_error (c : Bool) {x y : Val} (hxy : R x y) {name name' : Str} (hn : ErrName.forName name = ErrName.forName name')
    (msg stack : Option Str) {cause cause' : Val} (h : SameFormVal R cause cause') :
    InStep e e' R (writeError c rec x name msg stack cause) (writeError c rec' y name' msg stack cause') := by
  intro ws ws' hs
  unfold writeError
  have hc := alike_null H h
  by_cases hnl : cause = .null
  · simp only [if_pos hnl, if_pos (hc.1 hnl)]
    exact sim_mark.bind ((sim_tag _).bind ((sim_errProto hn).bind ((sim_errText _ _).bind ((sim_errText _ _).bind
      (sim_done.bind (sim_emit _)))))) ws ws' hs
  · simp only [if_neg hnl, if_neg (fun h' => hnl (hc.2 h'))]
    exact sim_done.bind ((sim_tag _).bind ((sim_errProto hn).bind ((sim_errText _ _).bind ((sim_errText _ _).bind
      ((sim_cause H hr c hxy h).bind (sim_emit _)))))) ws ws' hs

end
end

end V8
