import Verif.Spec.Restorable
import Verif.Proofs.EncodeSimMain
import Verif.Proofs.EncodeZero
import Verif.Props.Collections

/-!
# What came back has the form of what was encoded
-/

namespace V8
open V8.Spec

theorem sameVal_form {env : EEnv} {z : F64} {P R : Val → Val → Prop} (hR : ∀ {a b}, P a b → Unwrapped env a → R a b)
    (ht : NoTwins env) {a b : Val} (h : SameVal env z P a b) (hu : Unwrapped env a)
    (hz : ∀ x, a = .float x → fval x = .fin 0 → x = z) : SameFormVal R a b := by
  cases a with
  | obj i =>
    obtain ⟨j, hij, hp⟩ := h
    rw [← ht i j hij] at hp; exact hR hp hu
  | bytes b => exact hR h trivial
  | float x =>
    have h : b = .float (if fval x = .fin 0 then z else x) := h
    rw [h]
    by_cases hx : fval x = .fin 0
    · rw [if_pos hx, ← hz x rfl hx]; rfl
    · rw [if_neg hx]; rfl
  | int m =>
    rcases h with ⟨_, rfl⟩ | ⟨h1, y, rfl, h2⟩
    · rfl
    · unfold KeptInt at h1
      exact ⟨fun h => h1 (.inl h), by omega, h2⟩
  | bool a => cases b <;> simp_all [SameVal, SameScalar, SameFormVal]
  | str a => cases b <;> simp_all [SameVal, SameScalar, SameFormVal]
  | _ => cases b <;> first | exact h.elim | rfl

/-- A pairing by which different objects go to different objects. -/
structure Injects (P : Val → Val → Prop) : Prop where
  objs : ∀ {a b}, P a b → ∃ j, b = .obj j
  left : ∀ {a b}, P a b → (∃ i, a = .obj i) ∨ ∃ s, a = .bytes s
  inj : ∀ {a a' b}, P a b → P a' b → a = a'

theorem SameFormVal.svz {P : Val → Val → Prop} (hp : Injects P) {a b a' b' : Val} (ha : SameFormVal P a a') (hb : SameFormVal P b b')
    (h : SameValueZero a' b') : SameValueZero a b := by
  have refl : ∀ a, SameValueZero a a := fun a => by cases a <;> simp [SameValueZero]
  have objL : ∀ {a j}, SameFormVal P a (.obj j) → P a (.obj j) := by
    intro a j h
    cases a <;> simp_all [SameFormVal]
  have noObj : ∀ {a b}, SameFormVal P a b → (∃ i, a = .obj i) ∨ (∃ s, a = .bytes s) → ∃ j, b = .obj j := by
    rintro a b h (⟨i, rfl⟩ | ⟨i, rfl⟩) <;> exact hp.objs h
  by_cases ka : (∃ i, a = .obj i) ∨ ∃ s, a = .bytes s
  · obtain ⟨j, rfl⟩ := noObj ha ka
    obtain rfl : b' = .obj j := by cases b' <;> simp_all [SameValueZero]
    rw [hp.inj (objL ha) (objL hb)]
    exact refl _
  by_cases kb : (∃ i, b = .obj i) ∨ ∃ s, b = .bytes s
  · obtain ⟨j, rfl⟩ := noObj hb kb
    obtain rfl : a' = .obj j := by cases a' <;> simp_all [SameValueZero]
    rw [hp.inj (objL ha) (objL hb)]
    exact refl _
  have hn : ∀ {n x}, fval x = .fin (n * 2 ^ 1074) → SameValueZero (.int n) (.float x) := fun h => h
  have sc : ∀ {a a'}, SameFormVal P a a' → ¬ ((∃ i, a = .obj i) ∨ ∃ s, a = .bytes s) → SameValueZero a a' := by
    intro a a' h k
    cases a with
    | obj i => exact absurd (.inl ⟨i, rfl⟩) k
    | bytes i => exact absurd (.inr ⟨i, rfl⟩) k
    | int n =>
      cases a' with
      | float x => exact hn h.2.2
      | int m => injection h
      | _ => cases h
    | _ => rw [← show _ = a' from h]; exact refl _
  refine Props.svz_symm ?_
  refine (Props.svz_trans_iff (Props.svz_symm (sc hb kb))).1 ?_
  refine Props.svz_symm ?_
  exact (Props.svz_trans_iff (Props.svz_symm (sc ha ka))).1 h

theorem mapStore_new {β : Type} {k : Val} {v : β} {l : List (Val × β)} (h : ∀ e ∈ l, ¬ SameValueZero e.1 k) :
    mapStore k v l = l ++ [(k, v)] := by
  induction l with
  | nil => rfl
  | cons e l ih =>
    obtain ⟨k', v'⟩ := e
    rw [mapStore, if_neg (h (k', v') List.mem_cons_self), ih fun e he => h e (List.mem_cons_of_mem _ he)]
    rfl

theorem setStore_new {k : Val} {l : List Val} (h : ∀ e ∈ l, ¬ SameValueZero e k) : setStore k l = l ++ [k] := by
  induction l with
  | nil => rfl
  | cons e l ih =>
    rw [setStore, if_neg (h e List.mem_cons_self), ih fun e he => h e (List.mem_cons_of_mem _ he)]
    rfl

theorem foldl_mapStore {β : Type} (ps : List (Val × β)) : ∀ acc, (acc ++ ps).Pairwise (fun a b => ¬ SameValueZero a.1 b.1) →
    ps.foldl (fun l e => mapStore e.1 e.2 l) acc = acc ++ ps := by
  induction ps with
  | nil => intro acc _; simp
  | cons p ps ih =>
    intro acc h
    have e : acc ++ p :: ps = (acc ++ [p]) ++ ps := by simp
    rw [List.foldl_cons, mapStore_new, e]
    · exact ih _ (e ▸ h)
    · intro x hx
      exact (List.pairwise_append.1 h).2.2 x hx p List.mem_cons_self

theorem foldl_setStore (ps : List Val) : ∀ acc, (acc ++ ps).Pairwise (fun a b => ¬ SameValueZero a b) →
    ps.foldl (fun l e => setStore e l) acc = acc ++ ps := by
  induction ps with
  | nil => intro acc _; simp
  | cons p ps ih =>
    intro acc h
    have e : acc ++ p :: ps = (acc ++ [p]) ++ ps := by simp
    rw [List.foldl_cons, setStore_new, e]
    · exact ih _ (e ▸ h)
    · intro x hx
      exact (List.pairwise_append.1 h).2.2 x hx p List.mem_cons_self

theorem pairwise_forall₂ {α β : Type} {F : α → β → Prop} {Q : α → α → Prop} {Q' : β → β → Prop}
    (hq : ∀ {a b a' b'}, F a a' → F b b' → Q a b → Q' a' b') {l : List α} {l' : List β} (h : List.Forall₂ F l l')
    (hl : l.Pairwise Q) : l'.Pairwise Q' := by
  induction h with
  | nil => exact .nil
  | @cons a a' l l' h1 h2 ih =>
    obtain ⟨h3, h4⟩ := List.pairwise_cons.1 hl
    refine List.pairwise_cons.2 ⟨fun b' hb' => ?_, ih h4⟩
    clear ih hl h4
    induction h2 with
    | nil => cases hb'
    | @cons b c l l' h5 h6 ih =>
      rcases List.mem_cons.1 hb' with rfl | hb'
      · exact hq h1 h5 (h3 _ List.mem_cons_self)
      · exact ih (fun x hx => h3 x (List.mem_cons_of_mem _ hx)) hb'

theorem forName_value (k : ErrName) : ErrName.forName k.value = k := by cases k <;> decide +kernel

section
variable {env : EEnv} {z : F64} {P : Val → Val → Prop} {h' : Heap} {b b' : Val}

theorem forall₂_elems {els : List Val} (hh : ∀ v ∈ els, v ≠ .hole) : ∀ {l : List (Option Val)},
    List.Forall₂ (SameVal env z P) els (l.map elemVal) → (∀ i, ¬ P (.obj i) .hole) → (∀ i, ¬ P (.bytes i) .hole) →
    ∃ l', l = l'.map some ∧ List.Forall₂ (SameVal env z P) els l' := by
  intro l h hp hq
  induction l generalizing els with
  | nil => exact ⟨[], rfl, h⟩
  | cons x l ih =>
    cases h with
    | @cons a b l1 l2 h1 h2 =>
      obtain ⟨l', rfl, h3⟩ := ih (fun v hv => hh v (List.mem_cons_of_mem _ hv)) h2
      cases x with
      | some w => exact ⟨w :: l', rfl, .cons h1 h3⟩
      | none =>
        refine absurd ?_ (hh a List.mem_cons_self)
        have h1 : SameVal env z P a .hole := h1
        cases a with
        | hole => rfl
        | obj i => obtain ⟨j, _, h⟩ := h1; exact absurd h (hp j)
        | bytes i => exact absurd h1 (hq i)
        | int m => rcases h1 with ⟨_, h⟩ | ⟨_, y, h, _⟩ <;> cases h
        | float x => cases h1
        | _ => exact h1.elim

theorem exposed_take (b : ABuf) : (⟨b.exposed, b.max, true⟩ : ABuf).exposed = b.exposed := by
  simp [ABuf.exposed, List.take_take]

theorem forall₂_imp_mem {α β : Type} {F G : α → β → Prop} {l : List α} {l' : List β} (h : List.Forall₂ F l l')
    (hg : ∀ a b, a ∈ l → F a b → G a b) : List.Forall₂ G l l' := by
  induction h with
  | nil => exact .nil
  | @cons a b l l' h1 h2 ih => exact .cons (hg _ _ List.mem_cons_self h1) (ih fun a b ha => hg a b (List.mem_cons_of_mem _ ha))

theorem View.on_empty (v : View) : v.byteOffset [] = 0 ∧ v.byteLength [] = 0 := by
  constructor
  · unfold View.byteOffset View.isInRange View.region
    cases v.itemLength with
    | some n =>
      simp only [List.length_nil]
      by_cases h : v.itemOffset * v.tag.size + n * v.tag.size > 0
      · rw [if_pos h]; rfl
      · rw [if_neg h]; split <;> omega
    | none =>
      simp only [List.length_nil]
      by_cases h : v.itemOffset * v.tag.size > 0
      · rw [if_pos h]; rfl
      · rw [if_neg h]; split <;> omega
  · unfold View.byteLength View.bytes View.region
    cases v.itemLength with
    | some n => simp only [List.length_nil]; split <;> simp
    | none => simp

/-- The buffer of a view, before and after. -/
theorem buffer_form (hw : IsBuffer env.heap b) (ho : SameObject env z P h' b b')
    (hr : backingResizable env.heap b = true → ∃ i c, b = .obj i ∧ env.heap[i]? = some (.abuf c) ∧ env.feats.resizableArrayBuffers = true) :
    backingBytes h' b' = backingBytes env.heap b ∧ backingResizable h' b' = backingResizable env.heap b := by
  cases b with
  | bytes s =>
    obtain ⟨j, rfl, hj⟩ := ho
    simp only [backingBytes, backingResizable, hj, exposed_fixed]
    exact ⟨trivial, rfl⟩
  | obj i =>
    obtain ⟨n, hi, hn⟩ := ho
    have hw : IsBuffer env.heap (.obj i) := hw
    unfold IsBuffer at hw
    simp only [hi] at hw
    cases n with
    | abuf c =>
      obtain ⟨j, n', rfl, hj, hc⟩ := hn
      cases n' with
      | abuf c' =>
        have hc : c' = _ := hc
        simp only [backingBytes, backingResizable, hj, hi]
        by_cases hres : c.resizable = true
        · have : env.feats.resizableArrayBuffers = true := by
            obtain ⟨_, _, _, _, h⟩ := hr (by simp only [backingResizable, hi, hres])
            exact h
          rw [hc, if_pos ⟨hres, this⟩, exposed_take]
          exact ⟨rfl, hres.symm⟩
        · rw [hc, if_neg (fun h => hres h.1), exposed_fixed]
          simp only [Bool.not_eq_true] at hres
          exact ⟨rfl, hres.symm⟩
      | _ => exact hc.elim
    | rawBuf w s =>
      obtain ⟨j, n', rfl, hj, hc⟩ := hn
      cases n' with
      | abuf c' =>
        have hc : c' = fixedBuf s := hc
        simp only [backingBytes, backingResizable, hj, hi, hc, exposed_fixed]
        refine ⟨trivial, ?_⟩
        cases w with
        | false => rfl
        | true =>
          obtain ⟨k, c, hk, hk', _⟩ := hr (by simp only [backingResizable, hi])
          injection hk with hk
          subst hk
          rw [hi] at hk'
          cases hk'
      | _ => exact hc.elim
    | sharedBuf id =>
      obtain ⟨j, n', rfl, hj, hc⟩ := hn
      cases n' <;> first | exact hc.elim | simp only [backingBytes, backingResizable, hj, hi, and_self]
    | transferBuf id =>
      obtain ⟨j, n', rfl, hj, hc⟩ := hn
      cases n' <;> first | exact hc.elim | simp only [backingBytes, backingResizable, hj, hi, and_self]
    | _ => exact hw.elim
  | _ => exact hw.elim

theorem view_form {b b' : Val} {v v' : View} (hv : SameView env.heap b v v') (h1 : backingBytes h' b' = backingBytes env.heap b)
    (h2 : backingResizable h' b' = backingResizable env.heap b) : SameFormView env.heap h' b b' v v' := by
  unfold SameFormView
  simp only [h1, h2]
  unfold SameView at hv
  cases hb : backingBytes env.heap b with
  | some mv =>
    simp only [hb] at hv
    obtain ⟨h3, h4, h5, h6⟩ := hv
    simp only [Option.getD_some, View.byteLength, h3, h4, h5, true_and, View.isLengthTracking]
    cases hr : backingResizable env.heap b with
    | false => simp
    | true =>
      rw [hr] at h6
      simp only [and_true] at h6
      cases h7 : v.itemLength <;> cases h8 : v'.itemLength <;> simp_all
  | none =>
    simp only [hb] at hv
    subst hv
    simp only [Option.getD_none, View.on_empty, true_and]
    have hr : backingResizable env.heap b = false := by
      cases b with
      | obj i =>
        simp only [backingBytes] at hb
        simp only [backingResizable]
        split at hb <;> simp_all
      | _ => rfl
    rw [hr]
    simp [View.isLengthTracking]

theorem node_form {e' : EEnv} {R : Val → Val → Prop} {n n' : Node} (hpy : e'.py = env.py) (hfe : e'.feats = env.feats) (hh : e'.heap = h') (ht : NoTwins env)
    (hp : Injects R) (hR : ∀ {a b}, P a b → Unwrapped env a → R a b) (hno : ∀ a, ¬ P a .hole)
    (hu : ∀ c ∈ members n, Unwrapped env c) (hobj : ∀ {a b}, P a b → SameObject env z P h' a b)
    (hz : ∀ x, .float x ∈ members n → fval x = .fin 0 → x = z) (hm : NodeRestorable env n)
    (hw : ∀ b v, n = .view b v → IsBuffer env.heap b) (h : SameContent env z P n n') : SameFormNode env e' R n n' := by
  have form : ∀ {a b}, SameVal env z P a b → a ∈ members n → SameFormVal R a b := fun h hm =>
    sameVal_form hR ht h (hu _ hm) fun x hx => hz x (hx ▸ hm)
  have item : ∀ {l l' : List (PKey × Val)}, (∀ a ∈ l, a.2 ∈ members n) → SameItems env z P l l' → SameFormItems R l l' := by
    intro l l' hl hs
    refine forall₂_imp_mem hs fun a b ha hab => ⟨hab.1, form hab.2 (hl a ha)⟩
  cases n with
  | jsmap es =>
    cases n' with
    | jsmap es' =>
      obtain ⟨ps, h1, rfl⟩ := h
      have h2 : List.Forall₂ (fun a b => SameFormVal R a.1 b.1 ∧ SameFormVal R a.2 b.2) es ps :=
        forall₂_imp_mem h1 fun a b ha hab =>
          ⟨form hab.1 (List.mem_flatMap.2 ⟨a, ha, by simp⟩), form hab.2 (List.mem_flatMap.2 ⟨a, ha, by simp⟩)⟩
      rw [foldl_mapStore ps []]
      · exact h2
      · exact pairwise_forall₂ (fun h3 h4 h5 h6 => h5 (SameFormVal.svz hp h3.1 h4.1 h6)) h2 hm
    | _ => exact h.elim
  | jsset ms =>
    cases n' with
    | jsset ms' =>
      obtain ⟨ps, h1, rfl⟩ := h
      have h2 : List.Forall₂ (SameFormVal R) ms ps :=
        forall₂_imp_mem h1 fun a b ha hab => form hab ha
      rw [foldl_setStore ps []]
      · exact h2
      · exact pairwise_forall₂ (fun h3 h4 h5 h6 => h5 (SameFormVal.svz hp h3 h4 h6)) h2 hm
    | _ => exact h.elim
  | jsobj o =>
    cases n' with
    | jsobj o' => exact item (fun a ha => List.mem_map.2 ⟨a, ha, rfl⟩) h.2
    | _ => exact h.elim
  | jsarr o =>
    cases n' with
    | jsarr o' => exact ⟨h.2.1.symm, item (fun a ha => List.mem_map.2 ⟨a, ha, rfl⟩) h.2.2⟩
    | _ => exact h.elim
  | pylist l =>
    cases n' with
    | jsarr o' =>
      obtain ⟨hi, h2, h3⟩ := h
      obtain ⟨l', h4, h5⟩ := forall₂_elems hm h2 (fun i => hno _) (fun i => hno _)
      have h6 : List.Forall₂ (SameFormVal R) l l' :=
        forall₂_imp_mem h5 fun a b ha hab => form hab ha
      rw [Arr.toList_eq hi.arr] at h4
      refine ⟨hm, ?_, ?_⟩
      · have := Arr.len_eq hi.arr
        rw [h4, List.length_map, ← h6.length_eq] at this
        exact this
      · rw [JSObj.items_eq hi, h4, h3, itemsOf_some]
        simp only [List.map_nil, List.append_nil, List.map_map, Function.comp_def]
        clear h2 h4 h5 hm
        have key : ∀ {l l' : List Val} (k : Nat), List.Forall₂ (SameFormVal R) l l' →
            SameFormItems R ((l.zipIdx k).map fun p => (PKey.idx p.2, p.1)) ((l'.zipIdx k).map fun p => (PKey.idx p.2, p.1)) := by
          intro l l' k h
          induction h generalizing k with
          | nil => exact .nil
          | cons h _ ih => exact .cons ⟨rfl, h⟩ (ih _)
        exact key 0 h6
    | _ => exact h.elim
  | date d =>
    cases n' with
    | date d' =>
      show env.py.dateMs d = e'.py.dateMs d'
      rw [hpy, show d' = d from h]
    | _ => exact h.elim
  | primObj p => exact h.elim
  | regexp r =>
    cases n' with
    | regexp r' =>
      refine ⟨h.1.symm, ?_⟩
      rw [h.2]
      simp [canonicalFlags, Nat.and_assoc]
    | _ => exact h.elim
  | error name msg stack cause =>
    cases n' with
    | error name' msg' stack' cause' =>
      obtain ⟨rfl, rfl, rfl, h4⟩ := h
      refine ⟨(forName_value _).symm, ?_, rfl, ?_⟩
      · cases msg with
        | none => exact absurd rfl hm
        | some s => rfl
      · by_cases hc : cause = .null
        · subst hc
          cases cause' <;> first | exact h4.elim | rfl
        · exact form h4 (by simp [members, hc])
    | _ => exact h.elim
  | abuf b =>
    cases n' with
    | abuf b' =>
      have h : b' = _ := h
      refine ⟨_, rfl, ?_⟩
      rw [hfe, h]
      simp only [bufferForm]
      split
      · rw [exposed_take]; simp_all
      · rw [exposed_fixed]; simp [fixedBuf]
    | _ => exact h.elim
  | rawBuf w s =>
    cases n' with
    | abuf b' =>
      have h : b' = _ := h
      refine ⟨_, rfl, ?_⟩
      rw [h]
      simp [bufferForm, fixedBuf, ABuf.exposed]
    | _ => exact h.elim
  | sharedBuf id =>
    cases n' with
    | sharedBuf id' => exact Eq.symm h
    | _ => exact h.elim
  | transferBuf id =>
    cases n' with
    | transferBuf id' => exact Eq.symm h
    | _ => exact h.elim
  | view b v =>
    cases n' with
    | view b' v' =>
      have hb := hw b v rfl
      have hf : SameFormVal R b b' := form h.1 (by simp [members])
      have hpb : P b b' := by
        have h1 := h.1
        cases b with
        | obj i =>
          obtain ⟨j, hij, h1⟩ := h1
          rw [ht i j hij]; exact h1
        | bytes s => exact h1
        | _ => exact hb.elim
      obtain ⟨h1, h2⟩ := buffer_form hb (hobj hpb) hm
      exact ⟨hf, hh ▸ view_form h.2 h1 h2⟩
    | _ => exact h.elim
  | sharedRef id =>
    cases n' with
    | sharedRef id' => exact Eq.symm h
    | _ => exact h.elim
  | other => exact h.elim

/-- What came back has the form of what was encoded. -/
theorem sameGraph_form {e' : EEnv} (hpy : e'.py = env.py) (hfe : e'.feats = env.feats) {v w : Val} (he : Encodable env)
    (hr : Restorable env v) (hn : NumberedAlike env) (ht' : NoTwins e') (hg : SameGraph env z P v w e'.heap) :
    SameForm env e' (fun a b => P a b ∧ Unwrapped env a) ∧ SameFormVal (fun a b => P a b ∧ Unwrapped env a) v w := by
  have unl : ∀ {a b}, P a b → ¬ IsUnlogged env a := by
    intro a b hab hu
    unfold IsUnlogged at hu
    split at hu
    · split at hu
      · next i _ _ h => exact hn i _ h
      · next i _ _ _ _ h => exact hn i _ h rfl
      · exact hu
    · exact hu
  have hp : Injects (fun a b => P a b ∧ Unwrapped env a) := by
    have ob : ∀ {a b}, P a b ∧ Unwrapped env a → ∃ j, b = .obj j := by
      rintro a b ⟨hab, hu⟩
      have ho := hg.objects a b hab
      cases a with
      | bytes s => obtain ⟨j, h, _⟩ := ho; exact ⟨j, h⟩
      | obj i =>
        obtain ⟨n, hi, hs⟩ := ho
        cases n with
        | primObj p => exact absurd hi (hu p)
        | _ => obtain ⟨j, _, h, _⟩ := hs; exact ⟨j, h⟩
      | _ => exact ho.elim
    refine ⟨ob, ?_, ?_⟩
    · rintro a b ⟨hab, hu⟩
      have ho := hg.objects a b hab
      cases a with
      | bytes s => exact .inr ⟨s, rfl⟩
      | obj i => exact .inl ⟨i, rfl⟩
      | _ => exact ho.elim
    · rintro a a' b ⟨h1, h1'⟩ ⟨h2, h2'⟩
      obtain ⟨j, rfl⟩ := ob ⟨h1, h1'⟩
      exact hg.distinct a a' j h1 h2
  have no : ∀ a, ¬ P a .hole := by
    intro a hab
    have ho := hg.objects a _ hab
    cases a with
    | bytes s => obtain ⟨j, h, _⟩ := ho; cases h
    | obj i =>
      obtain ⟨n, hi, hs⟩ := ho
      cases n with
      | primObj p => cases p <;> exact hs.elim
      | _ => obtain ⟨j, _, h, _⟩ := hs; cases h
    | _ => exact ho.elim
  have zero : ∀ x, FloatIn env P v x → fval x = .fin 0 → x = z := by
    intro x hx h0
    obtain ⟨h1, h2⟩ := hg.zeros x hx h0
    have src : ∀ y, FloatIn env P v y →
        (.float y = v ∨ ∃ (i : Id) (n : Node), env.heap[i]? = some n ∧ .float y ∈ members n) := by
      rintro y (h | ⟨i, b, n, _, hi, hm⟩)
      · exact .inl h.symm
      · exact .inr ⟨i, n, hi, hm⟩
    exact hr.zeros x z (src x hx) (src z h2) h0 h1
  refine ⟨⟨?_, ?_, ?_⟩, ?_⟩
  · rintro a a' b b' ⟨h1, h1'⟩ ⟨h2, h2'⟩
    constructor
    · intro h
      rcases hg.shared a a' b b' h1 h2 (.inl h) with h | h | h
      · exact absurd h (unl h1)
      · exact absurd h (unl h2)
      · exact h
    · rintro rfl
      exact hp.inj ⟨h1, h1'⟩ ⟨h2, h2'⟩
  · rintro a b ⟨hab, hu⟩
    have ho := hg.objects a b hab
    cases a with
    | bytes s =>
      obtain ⟨j, rfl, hj⟩ := ho
      refine ⟨_, _, rfl, hj, _, rfl, ?_⟩
      simp [bufferForm, fixedBuf, ABuf.exposed]
    | obj i =>
      obtain ⟨n, hi, hs⟩ := ho
      have hm := hr.nodes i n hi
      have hs : ∃ j n', b = .obj j ∧ e'.heap[j]? = some n' ∧ SameContent env z P n n' := by
        cases n with
        | primObj p => exact absurd hi (hu p)
        | _ => exact hs
      obtain ⟨j, n', rfl, hj, hc⟩ := hs
      refine ⟨n, n', hi, hj, node_form hpy hfe rfl hr.twins hp (fun h h' => ⟨h, h'⟩) no
        (hr.inside i n hi) (fun h => hg.objects _ _ h) ?_ hm ?_ hc⟩
      · exact fun x hx => zero x (.inr ⟨i, _, n, hab, hi, hx⟩)
      · intro b v hb
        have h : ViewOK env b v := by subst hb; exact he.nodes i _ hi
        exact h.1
    | _ => exact ho.elim
  · rintro a a' b b' ⟨h1, h1'⟩ ⟨h2, h2'⟩
    have key : ∀ {e : EEnv}, NoTwins e → ∀ x y, OneObject e x y ↔ x = y := by
      intro e he x y
      refine ⟨?_, .inl⟩
      rintro (h | ⟨i, j, rfl, rfl, h⟩)
      · exact h
      · rw [he i j h]
    rw [key hr.twins, key ht']
    constructor
    · intro h
      rcases hg.shared a a' b b' h1 h2 (.inl h) with h | h | h
      · exact absurd h (unl h1)
      · exact absurd h (unl h2)
      · exact h
    · rintro rfl
      exact hp.inj ⟨h1, h1'⟩ ⟨h2, h2'⟩
  · exact sameVal_form (fun h h' => ⟨h, h'⟩) hr.twins hg.root hr.root fun x hx => zero x (.inl hx)

end

end V8
