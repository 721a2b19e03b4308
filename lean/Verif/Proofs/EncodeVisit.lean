import Verif.Proofs.EncodeShape
import Verif.Proofs.EncodeDepth
import Verif.Proofs.RoundTripRoot

/-! Helper lemmas: the encoder visits everything reachable, and what it numbers in between. -/

namespace V8
open Spec

/-- An object, or a `bytes` value. -/
def IsObj : Val → Prop
  | .obj _ => True
  | .bytes _ => True
  | _ => False

/-- A mentioned value was visited: its representative is recorded, with a number that `O` excludes not,
or is one of those not recorded. -/
def Seen (env : EEnv) (ws : WS) (O : Nat → Prop) (c : Val) : Prop :=
  IsObj c → ∃ r, OneObject env c r ∧ IsRep env r ws ∧
    (IsUnlogged env r ∨ ∃ k, Dict.get ws.log.ids r = some k ∧ k < ws.log.slots.length ∧ ¬ O k)

/-- The error numbered `n` is complete: what was visited between its start and its end is numbered
before the end, and is not the error. -/
def Shut (env : EEnv) (ws : WS) (n : Nat) (cause : Val) : Prop :=
  ∃ m, n < m ∧ m ≤ ws.log.slots.length ∧ Seen env ws (fun k => m ≤ k ∨ k = n) cause ∧
    ∀ (i : Id) k node, Dict.get ws.log.ids (.obj i) = some k → n < k → k < m → env.heap[i]? = some node →
      ∀ c ∈ calls node, Seen env ws (fun k => m ≤ k ∨ k = n) c

/-- The numbers of the forward references without value. -/
def OpenIn (ws : WS) (k : Nat) : Prop := ws.log.slots[k]? = some (.fwd none)

/-- What encoding a value does to the log. -/
structure Visits (env : EEnv) (a b : WS) : Prop where
  slots : ∀ (k : Nat) (s : LogSlot), a.log.slots[k]? = some s → b.log.slots[k]? = some s
  closed : ∀ k, OpenIn b k → OpenIn a k
  memo : ∀ k v, Dict.get a.memo k = some v → Dict.get b.memo k = some v
  ids : ∀ v n, Dict.get a.log.ids v = some n → Dict.get b.log.ids v = some n
  fresh : ∀ v n, Dict.get b.log.ids v = some n → Dict.get a.log.ids v = some n ∨
    (a.log.slots.length ≤ n ∧ n < b.log.slots.length ∧ ¬ IsUnlogged env v)
  once : ∀ u v n, Dict.get b.log.ids u = some n → Dict.get b.log.ids v = some n → a.log.slots.length ≤ n → u = v
  onto : ∀ n, a.log.slots.length ≤ n → n < b.log.slots.length → ∃ v, Dict.get b.log.ids v = some n
  kids : ∀ (i : Id) n node, Dict.get b.log.ids (.obj i) = some n → a.log.slots.length ≤ n → env.heap[i]? = some node →
    ∀ c ∈ calls node, Seen env b (OpenIn a) c
  shut : env.feats.circularErrorCause = false → ∀ (i : Id) n name msg stack cause,
    Dict.get b.log.ids (.obj i) = some n → a.log.slots.length ≤ n →
    env.heap[i]? = some (.error name msg stack cause) → cause ≠ .null → Shut env b n cause

theorem length_mono {a b : List LogSlot} (h : ∀ (k : Nat) s, a[k]? = some s → b[k]? = some s) : a.length ≤ b.length := by
  by_contra hc
  have hc' : b.length < a.length := by omega
  have h1 : a[b.length]? = some a[b.length] := List.getElem?_eq_getElem hc'
  have h2 := h _ _ h1
  have := (List.getElem?_eq_some_iff.mp h2).1
  omega

theorem Visits.len {env : EEnv} {a b : WS} (h : Visits env a b) : a.log.slots.length ≤ b.log.slots.length :=
  length_mono h.slots

theorem IsRep.mono {env : EEnv} {v : Val} {a b : WS} (h : IsRep env v a)
    (hm : ∀ k v, Dict.get a.memo k = some v → Dict.get b.memo k = some v) : IsRep env v b :=
  fun k hk => hm k v (h k hk)

theorem Seen.mono {env : EEnv} {a b : WS} {O O' : Nat → Prop} {c : Val} (h : Seen env a O c)
    (hm : ∀ k v, Dict.get a.memo k = some v → Dict.get b.memo k = some v)
    (hi : ∀ v n, Dict.get a.log.ids v = some n → Dict.get b.log.ids v = some n)
    (hl : a.log.slots.length ≤ b.log.slots.length)
    (hO : ∀ k, k < a.log.slots.length → O' k → O k) : Seen env b O' c := by
  intro hc
  obtain ⟨r, h1, h2, h3⟩ := h hc
  refine ⟨r, h1, IsRep.mono h2 hm, ?_⟩
  rcases h3 with h3 | ⟨k, h3, h4, h5⟩
  · exact Or.inl h3
  · exact Or.inr ⟨k, hi _ _ h3, by omega, fun h => h5 (hO k h4 h)⟩

theorem Shut.mono {env : EEnv} {a b : WS} {n : Nat} {cause : Val} (h : Shut env a n cause)
    (hm : ∀ k v, Dict.get a.memo k = some v → Dict.get b.memo k = some v)
    (hi : ∀ v n, Dict.get a.log.ids v = some n → Dict.get b.log.ids v = some n)
    (hl : a.log.slots.length ≤ b.log.slots.length)
    (hf : ∀ v k, Dict.get b.log.ids v = some k → Dict.get a.log.ids v = some k ∨ a.log.slots.length ≤ k) :
    Shut env b n cause := by
  obtain ⟨m, h1, h2, h3, h4⟩ := h
  refine ⟨m, h1, le_trans h2 hl, h3.mono hm hi hl (fun _ _ h => h), ?_⟩
  intro i k node hk hnk hkm hnode c hc
  rcases hf _ _ hk with h5 | h5
  · exact (h4 i k node h5 hnk hkm hnode c hc).mono hm hi hl (fun _ _ h => h)
  · omega

theorem Visits.refl {env : EEnv} {a b : WS} (hl : b.log = a.log) (hm : ∀ k v, Dict.get a.memo k = some v → Dict.get b.memo k = some v)
    (hids : ∀ v n, Dict.get a.log.ids v = some n → n < a.log.slots.length) : Visits env a b where
  slots := fun k s h => by rw [hl]; exact h
  closed := fun k h => by unfold OpenIn at *; rw [← hl]; exact h
  memo := hm
  ids := fun v n h => by rw [hl]; exact h
  fresh := fun v n h => by rw [hl] at h; exact Or.inl h
  once := fun u v n h _ hn => by rw [hl] at h; have := hids _ _ h; omega
  onto := fun n h h' => by rw [hl] at h'; omega
  kids := fun i n node h hn => by rw [hl] at h; have := hids _ _ h; omega
  shut := fun _ i n _ _ _ _ h hn => by rw [hl] at h; have := hids _ _ h; omega

theorem Visits.trans {env : EEnv} {a b c : WS} (h1 : Visits env a b) (h2 : Visits env b c) : Visits env a c where
  slots := fun k s h => h2.slots k s (h1.slots k s h)
  closed := fun k h => h1.closed k (h2.closed k h)
  memo := fun k v h => h2.memo k v (h1.memo k v h)
  ids := fun v n h => h2.ids v n (h1.ids v n h)
  fresh := fun v n h => by
    have hb := h1.len
    have hc := h2.len
    rcases h2.fresh v n h with h3 | ⟨h3, h4, h5⟩
    · rcases h1.fresh v n h3 with h4 | ⟨h4, h5, h6⟩
      · exact Or.inl h4
      · exact Or.inr ⟨h4, by omega, h6⟩
    · exact Or.inr ⟨by omega, h4, h5⟩
  once := fun u v n hu hv hn => by
    rcases h2.fresh u n hu with h3 | ⟨h3, _⟩
    · rcases h2.fresh v n hv with h4 | ⟨h4, _⟩
      · exact h1.once u v n h3 h4 hn
      · exact h2.once u v n hu hv h4
    · exact h2.once u v n hu hv h3
  onto := fun n hn hn' => by
    by_cases hb : n < b.log.slots.length
    · obtain ⟨v, hv⟩ := h1.onto n hn hb
      exact ⟨v, h2.ids v n hv⟩
    · exact h2.onto n (by omega) hn'
  kids := fun i n node h hn hnode d hd => by
    rcases h2.fresh _ n h with h3 | ⟨h3, h4, h5⟩
    · exact (h1.kids i n node h3 hn hnode d hd).mono h2.memo h2.ids h2.len (fun _ _ h => h)
    · refine (h2.kids i n node h h3 hnode d hd).mono (fun _ _ h => h) (fun _ _ h => h) (le_refl _) ?_
      exact fun k _ hk => h1.slots k _ hk
  shut := fun hf i n name msg stack cause h hn hnode hc => by
    rcases h2.fresh _ n h with h3 | ⟨h3, h4, h5⟩
    · refine (h1.shut hf i n name msg stack cause h3 hn hnode hc).mono h2.memo h2.ids h2.len ?_
      intro v k hk
      rcases h2.fresh v k hk with h4 | h4
      · exact Or.inl h4
      · exact Or.inr h4.1
    · exact h2.shut hf i n name msg stack cause h h3 hnode hc

/-- Numbers are those of entries. -/
def IdsOK (ws : WS) : Prop := ∀ v n, Dict.get ws.log.ids v = some n → n < ws.log.slots.length

theorem Visits.idsOK {env : EEnv} {a b : WS} (h : Visits env a b) (ha : IdsOK a) : IdsOK b := by
  intro v n hn
  rcases h.fresh v n hn with h1 | h1
  · have := ha v n h1; have := h.len; omega
  · exact h1.2.1

/-- What is shown of `encode_object`. -/
def VisitsRec (env : EEnv) (rec : Val → Wr) : Prop :=
  ∀ v ws ws', RepInv env ws → IdsOK ws → rec v ws = .ok ws' →
    RepInv env ws' ∧ Visits env ws ws' ∧ Seen env ws' (OpenIn ws) v

theorem Walks.visits {env : EEnv} {rec : Val → Wr} (hrec : VisitsRec env rec) {cs : List Val} {n : Nat} {a b : WS}
    (h : Walks rec cs n a b) : RepInv env a → IdsOK a →
    RepInv env b ∧ Visits env a b ∧ ∀ c ∈ cs, Seen env b (OpenIn a) c := by
  induction h with
  | @done n a b h =>
    intro hr hi
    refine ⟨?_, Visits.refl h.1 (fun k v hk => by rw [h.2.1]; exact hk) hi, by simp⟩
    exact ⟨by rw [h.2.1]; exact hr.1, fun v hv k hk => by rw [h.2.1]; rw [h.1] at hv; exact hr.2 v hv k hk⟩
  | @call c cs n m a b d e h hc ht ih =>
    intro hr hi
    have hv : Visits env a b := Visits.refl h.1 (fun k v hk => by rw [h.2.1]; exact hk) hi
    have hrb : RepInv env b :=
      ⟨by rw [h.2.1]; exact hr.1, fun v hv k hk => by rw [h.2.1]; rw [h.1] at hv; exact hr.2 v hv k hk⟩
    obtain ⟨g1, g2, g3⟩ := hrec c b d hrb (hv.idsOK hi) hc
    obtain ⟨g4, g5, g6⟩ := ih g1 (g2.idsOK (hv.idsOK hi))
    refine ⟨g4, hv.trans (g2.trans g5), ?_⟩
    intro x hx
    have hopen : ∀ k, OpenIn a k → OpenIn b k := fun k hk => hv.slots k _ hk
    have hopen2 : ∀ k, OpenIn b k → OpenIn d k := fun k hk => g2.slots k _ hk
    rcases List.mem_cons.mp hx with rfl | hx
    · exact g3.mono g5.memo g5.ids g5.len fun k _ hk => hopen k hk
    · exact (g6 x hx).mono (fun _ _ h => h) (fun _ _ h => h) (le_refl _) fun k _ hk => hopen2 k (hopen k hk)

theorem Bare.repInv {env : EEnv} {n : Nat} {a b : WS} (h : Bare n a b) (hr : RepInv env a) : RepInv env b :=
  ⟨by rw [h.2.1]; exact hr.1, fun v hv k hk => by rw [h.2.1]; rw [h.1] at hv; exact hr.2 v hv k hk⟩

theorem Bare.visits {env : EEnv} {n : Nat} {a b : WS} (h : Bare n a b) (hi : IdsOK a) : Visits env a b :=
  Visits.refl h.1 (fun k v hk => by rw [h.2.1]; exact hk) hi

theorem Quiet.repInv {env : EEnv} {n : Nat} {a b : WS} (h : Quiet n a b) (hr : RepInv env a) : RepInv env b := h.bare.repInv hr

theorem Quiet.visits {env : EEnv} {n : Nat} {a b : WS} (h : Quiet n a b) (hi : IdsOK a) : Visits env a b := h.bare.visits hi

theorem get_none_of_not_contains {l : ObjLog} {v : Val} (h : l.contains v = false) : Dict.get l.ids v = none := by
  unfold ObjLog.contains at h
  cases hg : Dict.get l.ids v with
  | none => rfl
  | some n => rw [hg] at h; cases h

/-- An object recorded with number `a.log.slots.length`, between `a` and `b`, its insides walked
between. -/
theorem visits_of_record {env : EEnv} {a w b : WS} {x : Val} (hia : IdsOK a) (hx : a.log.contains x = false)
    (hu : ¬ IsUnlogged env x)
    (hids : w.log.ids = Dict.set a.log.ids x a.log.slots.length) (hlen : w.log.slots.length = a.log.slots.length + 1)
    (hslots : ∀ (k : Nat) (s : LogSlot), a.log.slots[k]? = some s → w.log.slots[k]? = some s)
    (hmemo : ∀ k v, Dict.get a.memo k = some v → Dict.get w.memo k = some v) (hv : Visits env w b)
    (hopen : ∀ k, OpenIn w k → OpenIn a k)
    (hkids : ∀ (i : Id) node, x = .obj i → env.heap[i]? = some node → ∀ c ∈ calls node, Seen env b (OpenIn a) c)
    (hshut : env.feats.circularErrorCause = false → ∀ (i : Id) name msg stack cause, x = .obj i →
      env.heap[i]? = some (.error name msg stack cause) → cause ≠ .null → Shut env b a.log.slots.length cause) :
    Visits env a b := by
  have hbl := hv.len
  have key : ∀ v n, Dict.get b.log.ids v = some n → Dict.get a.log.ids v = some n ∨
      (v = x ∧ n = a.log.slots.length) ∨ (w.log.slots.length ≤ n ∧ n < b.log.slots.length ∧ ¬ IsUnlogged env v) := by
    intro v n hn
    rcases hv.fresh v n hn with h1 | h1
    · rw [hids, Dict.get_set] at h1
      by_cases hvx : x = v
      · rw [if_pos hvx] at h1
        exact Or.inr (Or.inl ⟨hvx.symm, (Option.some.inj h1).symm⟩)
      · rw [if_neg hvx] at h1
        exact Or.inl h1
    · exact Or.inr (Or.inr h1)
  have hnone := get_none_of_not_contains hx
  refine ⟨fun k s h => hv.slots k s (hslots k s h), fun k h => hopen k (hv.closed k h), fun k v h => hv.memo k v (hmemo k v h), ?_, ?_, ?_, ?_, ?_, ?_⟩
  · intro v n h
    refine hv.ids v n ?_
    rw [hids, Dict.get_set]
    by_cases hvx : x = v
    · subst hvx; rw [hnone] at h; cases h
    · rw [if_neg hvx]; exact h
  · intro v n h
    rcases key v n h with h1 | ⟨rfl, rfl⟩ | h1
    · exact Or.inl h1
    · exact Or.inr ⟨le_refl _, by omega, hu⟩
    · exact Or.inr ⟨by omega, h1.2⟩
  · intro u v n hu hv' hn
    rcases key u n hu with h1 | ⟨h1, e1⟩ | h1
    · have := hia _ _ h1; omega
    · rcases key v n hv' with h2 | ⟨h2, e2⟩ | h2
      · have := hia _ _ h2; omega
      · rw [h1, h2]
      · omega
    · exact hv.once u v n hu hv' h1.1
  · intro n hn hn'
    by_cases hne : n = a.log.slots.length
    · subst hne
      exact ⟨x, hv.ids _ _ (by rw [hids, Dict.get_set]; simp)⟩
    · exact hv.onto n (by omega) hn'
  · intro i n node h hn hnode c hc
    rcases key _ n h with h1 | ⟨h1, rfl⟩ | h1
    · have := hia _ _ h1; omega
    · exact hkids i node h1.symm hnode c hc
    · exact (hv.kids i n node h h1.1 hnode c hc).mono (fun _ _ h => h) (fun _ _ h => h) (le_refl _)
        fun k _ hk => hslots k _ hk
  · intro hf i n name msg stack cause h hn hnode hc
    rcases key _ n h with h1 | ⟨h1, rfl⟩ | h1
    · have := hia _ _ h1; omega
    · exact hshut hf i name msg stack cause h1.symm hnode hc
    · exact hv.shut hf i n name msg stack cause h h1.1 hnode hc

theorem record_slots (l : ObjLog) (x : Val) (k : Nat) (s : LogSlot) (h : l.slots[k]? = some s) :
    (l.record x).1.slots[k]? = some s := by
  simp only [ObjLog.record]
  rw [List.getElem?_append_left (List.getElem?_eq_some_iff.mp h).1]
  exact h

theorem record_open {l : ObjLog} {x : Val} {k : Nat} (h : (l.record x).1.slots[k]? = some (.fwd none)) :
    l.slots[k]? = some (.fwd none) := by
  simp only [ObjLog.record] at h
  rw [List.getElem?_append] at h
  split at h
  · exact h
  · rw [List.getElem?_cons] at h
    split at h <;> simp at h

theorem begin_slots (l : ObjLog) (x : Val) (k : Nat) (s : LogSlot) (h : l.slots[k]? = some s) :
    (l.beginAcyclic x).1.slots[k]? = some s := by
  have hk := (List.getElem?_eq_some_iff.mp h).1
  simp only [ObjLog.beginAcyclic, ObjLog.record]
  rw [List.getElem?_set_ne (by omega), List.getElem?_append_left hk]
  exact h

/-- Recording keeps what `deduplicate` relies on. -/
theorem RepInv.record {env : EEnv} {a w : WS} {x : Val} (hr : RepInv env a) (hx : IsRep env x a) {n : Nat}
    (hids : w.log.ids = Dict.set a.log.ids x n) (hm : w.memo = a.memo) : RepInv env w := by
  refine ⟨by rw [hm]; exact hr.1, ?_⟩
  intro u hu k hk
  rw [hm]
  rw [hids, Dict.get_set] at hu
  by_cases huv : x = u
  · subst huv; exact hx k hk
  · rw [if_neg huv] at hu
    exact hr.2 u hu k hk

/-- The forward reference gets its value. -/
theorem Visits.endAcyclic {env : EEnv} {a b a' b' : WS} (h : Visits env a b) {n : Nat} {x : Val} (hn : n < a.log.slots.length)
    (ha : a'.log = a.log.endAcyclic n x) (hb : b'.log = b.log.endAcyclic n x) (hma : a'.memo = a.memo)
    (hmb : b'.memo = b.memo) : Visits env a' b' := by
  have hla : a'.log.slots.length = a.log.slots.length := by rw [ha]; simp [ObjLog.endAcyclic]
  have hlb : b'.log.slots.length = b.log.slots.length := by rw [hb]; simp [ObjLog.endAcyclic]
  have hia : a'.log.ids = a.log.ids := by rw [ha]; rfl
  have hib : b'.log.ids = b.log.ids := by rw [hb]; rfl
  have hbl := h.len
  have hsa : ∀ k, a'.log.slots[k]? = if k = n then some (.fwd (some x)) else a.log.slots[k]? := by
    intro k
    rw [ha]
    simp only [ObjLog.endAcyclic, List.getElem?_set]
    by_cases hk : n = k
    · subst hk; simp [hn]
    · rw [if_neg hk, if_neg (fun h => hk h.symm)]
  have hsb : ∀ k, b'.log.slots[k]? = if k = n then some (.fwd (some x)) else b.log.slots[k]? := by
    intro k
    rw [hb]
    simp only [ObjLog.endAcyclic, List.getElem?_set]
    by_cases hk : n = k
    · subst hk; simp; omega
    · rw [if_neg hk, if_neg (fun h => hk h.symm)]
  have seen : ∀ {O O' : Nat → Prop} {c : Val}, Seen env b O c → (∀ k, O' k → O k) → Seen env b' O' c := by
    intro O O' c hs hO
    exact hs.mono (fun k v h => by rw [hmb]; exact h) (fun v n h => by rw [hib]; exact h) (by omega) (fun k _ hk => hO k hk)
  refine ⟨?_, ?_, ?_, ?_, ?_, ?_, ?_, ?_, ?_⟩
  · intro k s hk
    rw [hsa] at hk
    rw [hsb]
    split at hk
    · rename_i hkn; rw [if_pos hkn]; exact hk
    · rename_i hkn; rw [if_neg hkn]; exact h.slots k s hk
  · intro k hk
    unfold OpenIn at *
    rw [hsb] at hk
    rw [hsa]
    split at hk
    · cases hk
    · rename_i hkn; rw [if_neg hkn]; exact h.closed k hk
  · intro k v hk
    rw [hma] at hk; rw [hmb]; exact h.memo k v hk
  · intro v m hv
    rw [hia] at hv; rw [hib]; exact h.ids v m hv
  · intro v m hv
    rw [hib] at hv; rw [hia, hla, hlb]; exact h.fresh v m hv
  · intro u v m hu hv hm
    rw [hib] at hu hv; rw [hla] at hm; exact h.once u v m hu hv hm
  · intro m hm hm'
    rw [hla] at hm; rw [hlb] at hm'; rw [hib]; exact h.onto m hm hm'
  · intro i m node hv hm hnode c hc
    rw [hib] at hv
    rw [hla] at hm
    refine seen (h.kids i m node hv hm hnode c hc) ?_
    intro k hk
    unfold OpenIn at *
    rw [hsa] at hk
    split at hk
    · cases hk
    · exact hk
  · intro hf i m name msg stack cause hv hm hnode hc
    rw [hib] at hv
    rw [hla] at hm
    refine (h.shut hf i m name msg stack cause hv hm hnode hc).mono (fun k v h => by rw [hmb]; exact h)
      (fun v n h => by rw [hib]; exact h) (by omega) (fun v k hk => Or.inl (by rw [hib] at hk; exact hk))

theorem NodeRun.visits {env : EEnv} {rec : Val → Wr} (hrec : VisitsRec env rec) {ac : Mode} {x : Val} {cs : List Val} {N : Nat}
    {a b : WS} (h : NodeRun rec ac x cs N a b) (hr : RepInv env a) (hi : IdsOK a) (hx : IsRep env x a)
    (hc : a.log.contains x = false) (hu : ¬ IsUnlogged env x)
    (hcs : ∀ (i : Id) node, x = .obj i → env.heap[i]? = some node → cs = calls node ∧ ac = modeOf env node)
    (hlast : ∀ n w, ac = .last → Walks rec cs n a w → w.log.contains x = false ∨ b.log ≠ (w.log.record x).1) :
    RepInv env b ∧ Visits env a b ∧ ∃ k, Dict.get b.log.ids x = some k ∧ k < b.log.slots.length ∧ ¬ OpenIn a k := by
  have notOpen : ∀ k, a.log.slots.length ≤ k → ¬ OpenIn a k := by
    intro k hk ho
    have := (List.getElem?_eq_some_iff.mp ho).1
    omega
  cases h with
  | @plain n w1 hac hn hl hm hd m hm' h _ =>
    have hids : w1.log.ids = Dict.set a.log.ids x a.log.slots.length := by rw [hl]; rfl
    have hlen : w1.log.slots.length = a.log.slots.length + 1 := by rw [hl]; simp [ObjLog.record]
    have hi1 : IdsOK w1 := by
      intro v n hv
      rw [hids, Dict.get_set] at hv
      split at hv
      · have := Option.some.inj hv; omega
      · have := hi v n hv; omega
    obtain ⟨g1, g2, g3⟩ := h.visits hrec (hr.record hx hids hm) hi1
    have hself : Dict.get b.log.ids x = some a.log.slots.length := g2.ids _ _ (by rw [hids, Dict.get_set]; simp)
    refine ⟨g1, visits_of_record hi hc hu hids hlen (fun k s h => by rw [hl]; exact record_slots _ _ k s h)
      (fun k v h => by rw [hm]; exact h) g2 (fun k h => by unfold OpenIn at *; rw [hl] at h; exact record_open h) ?_ ?_, a.log.slots.length, hself, ?_, notOpen _ (le_refl _)⟩
    · intro i node hxi hnode c hcm
      obtain ⟨e, _⟩ := hcs i node hxi hnode
      refine (g3 c (by rw [e]; exact hcm)).mono (fun _ _ h => h) (fun _ _ h => h) (le_refl _) ?_
      intro k _ hk
      show w1.log.slots[k]? = _
      rw [hl]
      exact record_slots _ _ k _ hk
    · intro hf i name msg stack cause hxi hnode hcn
      obtain ⟨_, e⟩ := hcs i _ hxi hnode
      rw [hac] at e
      simp [modeOf, hf] at e
    · have := g2.len; omega
  | @last n m w1 hac hn h hl hm hd _ =>
    obtain ⟨g1, g2, g3⟩ := h.visits hrec hr hi
    have hc1 : w1.log.contains x = false := (hlast n w1 hac h).resolve_right fun h => h hl
    have hids : b.log.ids = Dict.set w1.log.ids x w1.log.slots.length := by rw [hl]; rfl
    have hlen : b.log.slots.length = w1.log.slots.length + 1 := by rw [hl]; simp [ObjLog.record]
    have hi1 := g2.idsOK hi
    have hib : IdsOK b := by
      intro v n hv
      rw [hids, Dict.get_set] at hv
      split at hv
      · have := Option.some.inj hv; omega
      · have := hi1 v n hv; omega
    have hx1 : IsRep env x w1 := IsRep.mono hx g2.memo
    have hself : Dict.get b.log.ids x = some w1.log.slots.length := by rw [hids, Dict.get_set]; simp
    have hmono : ∀ v n, Dict.get w1.log.ids v = some n → Dict.get b.log.ids v = some n := by
      intro v n hv
      rw [hids, Dict.get_set]
      by_cases hvx : x = v
      · subst hvx; rw [get_none_of_not_contains hc1] at hv; cases hv
      · rw [if_neg hvx]; exact hv
    have hv2 : Visits env w1 b := by
      refine visits_of_record hi1 hc1 hu hids hlen (fun k s h => by rw [hl]; exact record_slots _ _ k s h)
        (fun k v h => by rw [hm]; exact h) (Visits.refl rfl (fun _ _ h => h) hib)
        (fun k h => by unfold OpenIn at *; rw [hl] at h; exact record_open h) ?_ ?_
      · intro i node hxi hnode c hcm
        obtain ⟨e, _⟩ := hcs i node hxi hnode
        exact (g3 c (by rw [e]; exact hcm)).mono (fun k v h => by rw [hm]; exact h) hmono (by omega) fun k _ hk => g2.closed k hk
      · intro hf i name msg stack cause hxi hnode hcn
        obtain ⟨_, e⟩ := hcs i _ hxi hnode
        rw [hac] at e
        simp [modeOf, hf] at e
    refine ⟨g1.record hx1 hids hm, g2.trans hv2, w1.log.slots.length, hself, by omega, notOpen _ g2.len⟩
  | @acyclic n m c w1 w2 hac hcc hn hl hm hd h hl' hm' hd' _ _ =>
    have hids : w1.log.ids = Dict.set a.log.ids x a.log.slots.length := by rw [hl]; rfl
    have hlen : w1.log.slots.length = a.log.slots.length + 1 := by rw [hl]; simp [ObjLog.record, ObjLog.beginAcyclic]
    have hi1 : IdsOK w1 := by
      intro v n hv
      rw [hids, Dict.get_set] at hv
      split at hv
      · have := Option.some.inj hv; omega
      · have := hi v n hv; omega
    obtain ⟨g1, g2, g3⟩ := hrec c w1 w2 (hr.record hx hids hm) hi1 h
    have hopen1 : OpenIn w1 a.log.slots.length := by
      unfold OpenIn
      rw [hl]
      simp [ObjLog.beginAcyclic, ObjLog.record]
    have hbids : b.log.ids = w2.log.ids := by rw [hl']; rfl
    have hblen : b.log.slots.length = w2.log.slots.length := by rw [hl']; simp [ObjLog.endAcyclic]
    have hlen2 := g2.len
    have hself : Dict.get b.log.ids x = some a.log.slots.length := by
      rw [hbids]; exact g2.ids _ _ (by rw [hids, Dict.get_set]; simp)
    have seen : ∀ {O O' : Nat → Prop} {c : Val}, Seen env w2 O c → (∀ k, k < w2.log.slots.length → O' k → O k) → Seen env b O' c := by
      intro O O' c hs hO
      exact hs.mono (fun k v h => by rw [hm']; exact h) (fun v n h => by rw [hbids]; exact h) (by omega) (fun k hk hk' => hO k hk hk')
    have hsub : ∀ k, OpenIn a k → OpenIn w1 k := fun k hk => by
      unfold OpenIn at *
      rw [hl]
      exact begin_slots _ _ k _ hk
    let w' : WS := { w1 with log := w1.log.endAcyclic a.log.slots.length x }
    have hv : Visits env w' b := g2.endAcyclic (by omega) rfl hl' rfl hm'
    refine ⟨⟨by rw [hm']; exact g1.1, fun v hv k hk => by rw [hm']; rw [hbids] at hv; exact g1.2 v hv k hk⟩, ?_,
      a.log.slots.length, hself, by omega, notOpen _ (le_refl _)⟩
    refine visits_of_record (w := w') hi hc hu hids ?_ ?_ (fun k v h => by show Dict.get w1.memo k = _; rw [hm]; exact h) hv ?_ ?_ ?_
    · show (w1.log.endAcyclic a.log.slots.length x).slots.length = _
      simp only [ObjLog.endAcyclic, List.length_set]; exact hlen
    · intro k s hk
      have hkl := (List.getElem?_eq_some_iff.mp hk).1
      show (w1.log.endAcyclic a.log.slots.length x).slots[k]? = _
      simp only [ObjLog.endAcyclic]
      rw [List.getElem?_set_ne (by omega), hl]
      exact begin_slots _ _ k s hk
    · intro k hk
      have hk' : (w1.log.endAcyclic a.log.slots.length x).slots[k]? = some (.fwd none) := hk
      simp only [ObjLog.endAcyclic] at hk'
      by_cases hka : k = a.log.slots.length
      · subst hka
        rw [List.getElem?_set] at hk'
        split at hk'
        · split at hk' <;> simp at hk'
        · exact absurd rfl (by assumption)
      · rw [List.getElem?_set_ne (by omega), hl] at hk'
        simp only [ObjLog.beginAcyclic, ObjLog.record] at hk'
        rw [List.getElem?_set_ne (by omega)] at hk'
        exact record_open (x := x) hk'
    · intro i node hxi hnode d hd
      obtain ⟨e, _⟩ := hcs i node hxi hnode
      rw [hcc] at e
      rw [← e, List.mem_singleton] at hd
      subst hd
      exact seen g3 fun k _ hk => hsub k hk
    · intro hf i name msg stack cause hxi hnode hcn
      obtain ⟨e, _⟩ := hcs i _ hxi hnode
      rw [hcc] at e
      simp only [calls, if_neg hcn] at e
      cases e
      have hO : ∀ k, k < w2.log.slots.length → (w2.log.slots.length ≤ k ∨ k = a.log.slots.length) → OpenIn w1 k := by
        intro k hk h
        rcases h with h | rfl
        · omega
        · exact hopen1
      refine ⟨w2.log.slots.length, by omega, by omega, seen g3 hO, ?_⟩
      intro j k node hk h1 h2 hnode' d hd
      rw [hbids] at hk
      exact seen (g2.kids j k node hk (by omega) hnode' d hd) hO

theorem trivial_closed (env : EEnv) : RunsClosed env (fun _ => True) (fun _ => True) (fun _ => True) :=
  ⟨⟨fun _ _ => trivial, fun _ _ _ _ => trivial, fun _ _ _ _ _ => trivial, fun _ _ => trivial⟩, fun _ _ _ _ _ => trivial⟩

/-- Writing the buffer of a view does not record the view. -/
theorem walks_buffer {env : EEnv} (ht : WellTyped env) {f : Nat} {b : Val} {n : Nat} {a w : WS} {x : Val}
    (h : Walks (encodeObject env f) [b] n a w) (hb : IsBuffer env.heap b) (hx : ¬ IsBuffer env.heap x)
    (hm : MemoOK env a.memo) (hc : a.log.contains x = false) : w.log.contains x = false := by
  cases h with
  | call hq hcall ht' =>
    obtain ⟨q1, q2, _⟩ := ht'.nil_quiet
    rw [q1]
    cases f with
    | zero => simp [encodeObject, encodeWith] at hcall
    | succ f =>
      exact ((encode_buffer_runs ht (trivial_closed env) hx hb f _ ⟨by rw [hq.2.1]; exact hm, trivial, by rw [hq.1]; exact hc⟩).2
        _ hcall).2.2

theorem oneObject_of_dedup {env : EEnv} {v : Val} {ws : WS} (hm : MemoOK env ws.memo) :
    OneObject env v (deduplicate env v ws).1 ∨ ¬ IsObj v := by
  rcases deduplicate_key v hm with h | ⟨k, h1, h2⟩
  · exact Or.inl (Or.inl h.symm)
  · cases v with
    | obj i =>
      left
      generalize (deduplicate env (.obj i) ws).1 = d at h1
      simp only [dkey, Option.map_eq_some_iff] at h2
      obtain ⟨c, hc, rfl⟩ := h2
      cases d with
      | obj j =>
        simp only [dkey, Option.map_eq_some_iff] at h1
        obtain ⟨c', hc', h'⟩ := h1
        cases h'
        exact Or.inr ⟨i, j, rfl, rfl, Or.inr ⟨c, hc, hc'⟩⟩
      | float x => simp only [dkey] at h1; split at h1 <;> cases h1
      | _ => simp [dkey] at h1
    | bytes b => simp [dkey] at h2
    | _ => exact Or.inr id

theorem OneObject.isObj {env : EEnv} {a b : Val} (h : OneObject env a b) (ha : IsObj a) : IsObj b := by
  rcases h with rfl | ⟨i, j, rfl, rfl, _⟩
  · exact ha
  · trivial

theorem encode_visits {env : EEnv} (ht : WellTyped env) (f : Nat) : VisitsRec env (encodeObject env f) := by
  induction f with
  | zero => intro v ws ws' _ _ h; simp [encodeObject, encodeWith] at h
  | succ f ih =>
    intro v ws ws' hr hi h
    rw [encodeObject_succ] at h
    obtain ⟨_, hr1, hx⟩ := (rep_closed env).dedup ws v hr
    have hgrow := fun k u => deduplicate_grows (env := env) v ws k u
    have hl : (deduplicate env v ws).2.log = ws.log := by rw [deduplicate_state]
    have hone := oneObject_of_dedup (v := v) hr.1
    have hi1 : IdsOK (deduplicate env v ws).2 := by intro u n hu; rw [hl] at hu ⊢; exact hi u n hu
    have hv1 : Visits env ws (deduplicate env v ws).2 := Visits.refl hl hgrow hi
    unfold V8.refsStep at h
    generalize deduplicate env v ws = r at *
    obtain ⟨d, w1⟩ := r
    simp only at *
    have fin : ∀ {w2 : WS}, RepInv env w2 → Visits env w1 w2 →
        (IsObj d → IsUnlogged env d ∨ ∃ k, Dict.get w2.log.ids d = some k ∧ k < w2.log.slots.length ∧ ¬ OpenIn w1 k) →
        RepInv env w2 ∧ Visits env ws w2 ∧ Seen env w2 (OpenIn ws) v := by
      intro w2 h1 h2 h3
      refine ⟨h1, hv1.trans h2, ?_⟩
      intro hobj
      have ho := hone.resolve_right fun h => h hobj
      refine ⟨d, ho, IsRep.mono hx h2.memo, ?_⟩
      rcases h3 (OneObject.isObj ho hobj) with h4 | ⟨k, h4, h5, h6⟩
      · exact Or.inl h4
      · exact Or.inr ⟨k, h4, h5, fun h => h6 (hv1.slots k _ h)⟩
    split at h
    · -- a reference
      unfold writeReference at h
      split at h
      · cases h
      · rename_i n hg
        have hq := reference_bare h
        refine fin (hq.repInv hr1) (hq.visits hi1) fun _ => Or.inr ?_
        unfold ObjLog.getId at hg
        cases hid : Dict.get w1.log.ids d with
        | none => rw [hid] at hg; cases hg
        | some k =>
          rw [hid] at hg
          simp only at hg
          refine ⟨k, by rw [hq.1]; exact hid, by rw [hq.1]; exact hi1 _ _ hid, ?_⟩
          intro ho
          unfold OpenIn at ho
          rw [ho] at hg
          cases hg
    · rename_i hc
      have hc : w1.log.contains d = false := by simpa using hc
      cases tagWriter_run h with
      | scalar h1 h2 hn hq =>
        refine fin (hq.repInv hr1) (hq.visits hi1) fun ho => ?_
        cases d with
        | obj i => exact absurd rfl (h1 i)
        | bytes b => exact absurd rfl (h2 b)
        | _ => exact ho.elim
      | unlogged h1 hnode hu hn hq => exact fin (hq.repInv hr1) (hq.visits hi1) fun _ => Or.inl hu
      | bytes h1 hrun =>
        obtain ⟨g1, g2, g3⟩ := hrun.visits ih hr1 hi1 hx hc (by rw [h1]; exact id) (by rw [h1]; intro i node h; cases h)
          (fun _ _ h => by cases h)
        exact fin g1 g2 fun _ => Or.inr g3
      | @logged i node h1 hnode hu hrun =>
        subst h1
        obtain ⟨g1, g2, g3⟩ := hrun.visits ih hr1 hi1 hx hc hu
          (by intro j node' hj hnode'; cases hj; rw [hnode] at hnode'; cases hnode'; exact ⟨rfl, rfl⟩)
          (by
            intro n w hlast hw
            left
            cases node with
            | view b vw =>
              exact walks_buffer ht hw (ht.views i b vw hnode) (by simp [IsBuffer, hnode]) hr1.1 hc
            | error => simp only [modeOf] at hlast; split at hlast <;> cases hlast
            | _ => cases hlast)
        exact fin g1 g2 fun _ => Or.inr g3

/-- The end of `dumps`. -/
theorem dumps_visits {env : EEnv} (ht : WellTyped env) {v : Val} {ws : WS} (h : dumpsState env v = .ok ws) :
    RepInv env ws ∧ Visits env WS.headed ws ∧ Seen env ws (fun _ => False) v := by
  unfold dumpsState dumpsWith at h
  obtain ⟨w0, h0, h⟩ := Except.bind_eq_ok h
  have e0 : w0 = WS.headed := emit_ok h0
  subst e0
  have hr : RepInv env WS.headed :=
    ⟨by simp [MemoOK, WS.headed, WS.new, Dict.get], by simp [WS.headed, WS.new, ObjLog.empty, Dict.get]⟩
  have hi : IdsOK WS.headed := by intro v n h; simp [WS.headed, WS.new, ObjLog.empty, Dict.get] at h
  obtain ⟨g1, g2, g3⟩ := encode_visits ht _ v _ _ hr hi h
  exact ⟨g1, g2, g3.mono (fun _ _ h => h) (fun _ _ h => h) (le_refl _) fun k _ h => h.elim⟩

/-- What an object contains is encoded. -/
theorem members_calls {env : EEnv} (ht : WellTyped env) {i : Id} {n : Node} (hi : env.heap[i]? = some n) {c : Val}
    (hc : c ∈ members n) : c ∈ calls n := by
  have props : ∀ o : JSObj Val, c ∈ o.items.map (·.2) → c ∈ pairCalls (itemVals o.items) := by
    intro o hm
    obtain ⟨e, he, rfl⟩ := List.mem_map.mp hm
    refine List.mem_flatMap.mpr ⟨(e.1.toVal, e.2), List.mem_map.mpr ⟨e, he, rfl⟩, by simp⟩
  cases n with
  | jsmap es => exact hc
  | jsset ms => exact hc
  | jsobj o => exact props o hc
  | jsarr o =>
    simp only [calls]
    split
    · exact props o hc
    · have hinv := ht.objects i o (Or.inr hi)
      simp only [members, JSObj.items_eq hinv, List.map_append, List.map_map, List.mem_append] at hc
      rw [List.mem_append]
      rcases hc with hc | hc
      · left
        obtain ⟨⟨k, v⟩, he, rfl⟩ := List.mem_map.mp hc
        rw [mem_itemsOf] at he
        cases hk : o.array.abs[k]? with
        | none => rw [hk] at he; cases he
        | some a =>
          rw [hk] at he
          simp only [Option.join_some] at he
          subst he
          refine List.mem_map.mpr ⟨some v, ?_, rfl⟩
          have := List.mem_of_getElem? hk
          rwa [← Arr.toList_eq hinv.arr] at this
      · right
        obtain ⟨e, he, rfl⟩ := List.mem_map.mp hc
        exact List.mem_flatMap.mpr ⟨(.str e.1, e.2), List.mem_map.mpr ⟨e, he, rfl⟩, by simp⟩
  | pylist els => exact hc
  | error name msg stack cause => exact hc
  | view b v => exact hc
  | _ => simp [members] at hc

end V8
