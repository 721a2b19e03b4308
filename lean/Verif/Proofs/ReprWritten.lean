import Verif.Spec.ReprWritten
import Verif.Proofs.ReprText
import Verif.Proofs.Repr

/-!
# Expressions written out: proofs
-/

set_option linter.unusedSimpArgs false

namespace V8.ReprText

open V8 V8.Spec.ReprText V8.Spec.ReprWritten

theorem joinWith_commas : ∀ (p : List Text), joinWith ", ".toList p = commas p
  | [] => rfl
  | [x] => by
    unfold commas
    simp [joinWith, List.intercalate]
  | x :: y :: p => by
    show x ++ ", ".toList ++ joinWith ", ".toList (y :: p) = _
    rw [joinWith_commas (y :: p)]
    unfold commas
    simp [List.intercalate, List.intersperse]

theorem collect_texts {α : Type} (g : α → Text) : ∀ (l : List α), collect (l.map fun e => .ok (g e)) = .ok (l.map g)
  | [] => rfl
  | e :: l => by
    rw [List.map_cons, collect, collect_texts g l]
    rfl

theorem filled_eq (look : Look) (more : Bool) (p : List Text) : withFill look more p = filled look more p := rfl

theorem commas_cons (x : Text) {p : List Text} (h : p ≠ []) : commas (x :: p) = x ++ [',', ' '] ++ commas p := by
  rw [← joinWith_commas, ← joinWith_commas]
  cases p with
  | nil => exact absurd rfl h
  | cons y p => rfl

theorem commas_one (x : Text) : commas [x] = x := by
  rw [← joinWith_commas]
  rfl

theorem gap_space {t : Text} (h : ∃ c r, t = c :: r ∧ c.isWhitespace = false) : gapBefore t = .ok [' '] := by
  obtain ⟨c, r, rfl, hc⟩ := h
  simp [gapBefore, hc]

theorem commas_head {p : List Text} (hp : p ≠ []) (h : ∀ x ∈ p, ∃ c r, x = c :: r ∧ c.isWhitespace = false) :
    ∃ c r, commas p = c :: r ∧ c.isWhitespace = false := by
  match p with
  | [] => exact absurd rfl hp
  | [x] =>
    rw [commas_one]
    exact h x (by simp)
  | x :: y :: p =>
    obtain ⟨c, r, hx, hc⟩ := h x (by simp)
    rw [commas_cons x (by simp), hx]
    exact ⟨c, _, rfl, hc⟩

theorem chars0 : "JSObject".toList = ['J', 'S', 'O', 'b', 'j', 'e', 'c', 't'] := by decide +kernel
theorem chars1 : "JSArray".toList = ['J', 'S', 'A', 'r', 'r', 'a', 'y'] := by decide +kernel
theorem chars2 : "JSMap".toList = ['J', 'S', 'M', 'a', 'p'] := by decide +kernel
theorem chars3 : "JSSet".toList = ['J', 'S', 'S', 'e', 't'] := by decide +kernel
theorem chars4 : "JSError".toList = ['J', 'S', 'E', 'r', 'r', 'o', 'r'] := by decide +kernel
theorem chars5 : "()".toList = ['(', ')'] := by decide +kernel
theorem chars6 : "(".toList = ['('] := by decide +kernel
theorem chars7 : ")".toList = [')'] := by decide +kernel
theorem chars8 : "({".toList = ['(', '{'] := by decide +kernel
theorem chars9 : "}".toList = ['}'] := by decide +kernel
theorem chars10 : "]".toList = [']'] := by decide +kernel
theorem chars11 : ",".toList = [','] := by decide +kernel
theorem chars12 : "=".toList = ['='] := by decide +kernel
theorem chars13 : ": ".toList = [':', ' '] := by decide +kernel
theorem chars14 : ", ".toList = [',', ' '] := by decide +kernel
theorem chars15 : ", **{".toList = [',', ' ', '*', '*', '{'] := by decide +kernel
theorem chars16 : "**{".toList = ['*', '*', '{'] := by decide +kernel
theorem chars17 : "JSArray()".toList = ['J', 'S', 'A', 'r', 'r', 'a', 'y', '(', ')'] := by decide +kernel
theorem chars18 : "JSArray(".toList = ['J', 'S', 'A', 'r', 'r', 'a', 'y', '('] := by decide +kernel
theorem chars19 : "JSArray([".toList = ['J', 'S', 'A', 'r', 'r', 'a', 'y', '(', '['] := by decide +kernel
theorem chars20 : "JSArray({".toList = ['J', 'S', 'A', 'r', 'r', 'a', 'y', '(', '{'] := by decide +kernel
theorem chars21 : "JSMap()".toList = ['J', 'S', 'M', 'a', 'p', '(', ')'] := by decide +kernel
theorem chars22 : "JSMap({".toList = ['J', 'S', 'M', 'a', 'p', '(', '{'] := by decide +kernel
theorem chars23 : "JSMap([".toList = ['J', 'S', 'M', 'a', 'p', '(', '['] := by decide +kernel
theorem chars24 : "JSSet()".toList = ['J', 'S', 'S', 'e', 't', '(', ')'] := by decide +kernel
theorem chars25 : "JSSet([".toList = ['J', 'S', 'S', 'e', 't', '(', '['] := by decide +kernel
theorem chars26 : "JSError(".toList = ['J', 'S', 'E', 'r', 'r', 'o', 'r', '('] := by decide +kernel

theorem charsName : "name=".toList = ['n', 'a', 'm', 'e', '='] := by decide +kernel
theorem charsStack : "stack=".toList = ['s', 't', 'a', 'c', 'k', '='] := by decide +kernel
theorem charsCause : "cause=".toList = ['c', 'a', 'u', 's', 'e', '='] := by decide +kernel

theorem okCongr {a b : Text} (h : a = b) : (Except.ok a : Except PyExc Text) = .ok b := by rw [h]

theorem entry_dict (k v : Text) : entryText true (.ok k) (.ok v) = .ok (k ++ [':', ' '] ++ v) := by
  rw [← chars13]
  rfl

theorem entry_list (k v : Text) : entryText false (.ok k) (.ok v) = .ok (['('] ++ k ++ [',', ' '] ++ v ++ [')']) := by
  rw [← chars6, ← chars14, ← chars7]
  rfl

theorem okBind {α β : Type} (a : α) (f : α → Except PyExc β) : (Except.ok a >>= f) = f a := rfl

theorem write_call (look : Look) (depth : Nat) (cls : ReprCls) (arg : PArg) (star : Bool) (kwargs : List (Str × PExpr))
    (more : Bool) : write look (depth + 1) (.call cls arg star kwargs more) =
      className cls ++ ['('] ++
        commas (writeArg look (write look depth) arg ++ writeKwargs look (write look depth) star kwargs more) ++ [')'] := rfl

theorem write_error (look : Look) (depth : Nat) (message : PExpr) (name stack cause : Option PExpr) :
    write look (depth + 1) (.errorCall message name stack cause) =
      ['J', 'S', 'E', 'r', 'r', 'o', 'r'] ++ ['('] ++
        commas ([write look depth message] ++ writeOpt (write look depth) ['n', 'a', 'm', 'e'] name ++
          writeOpt (write look depth) ['s', 't', 'a', 'c', 'k'] stack ++ writeOpt (write look depth) ['c', 'a', 'u', 's', 'e'] cause) ++ [')'] := rfl

theorem write_lit (look : Look) (depth : Nat) (v : Val) : write look (depth + 1) (.lit v) = look.lit v := rfl
theorem write_cut (look : Look) (depth : Nat) (v : Val) : write look (depth + 1) (.cut v) = look.lit v := rfl
theorem write_enum (look : Look) (depth : Nat) (s : Str) : write look (depth + 1) (.enumMember s) = look.enumText s := rfl
theorem write_fill (look : Look) (depth : Nat) : write look (depth + 1) .fill = look.fill := rfl
theorem write_other (look : Look) (depth : Nat) (i : Id) : write look (depth + 1) (.other i) = look.other i := rfl

section
variable {look : Look} {env : ReprEnv} {d : Nat} {T : Val → Text} {w : PExpr → Text} {sub : Val → PExpr}

/-- The keyword arguments: there are some, and they begin with no space. -/
theorem kwargs_written (ho : Ordinary look) {props : Dict Str Val} (hk : canBeKwargs env props = true) (left : Nat)
    (hT : ∀ v, T v = w (sub v)) :
    let kw := filled look (decide (left < props.length)) ((props.take left).map fun e => look.ident e.1 ++ ['='] ++ T e.2)
    kw ≠ [] ∧ (∀ x ∈ kw, ∃ c r, x = c :: r ∧ c.isWhitespace = false) ∧
      writeKwargs look w false ((props.take left).map fun e => (e.1, sub e.2)) (decide (left < props.length)) = kw := by
  intro kw
  have hprops : props.length ≠ 0 := by
    unfold canBeKwargs at hk
    cases props with
    | nil => cases hk
    | cons e p => simp
  refine ⟨?_, ?_, ?_⟩
  · show filled look _ _ ≠ []
    unfold filled
    split
    · simp
    · rename_i hl
      have hl : ¬ left < props.length := by simpa using hl
      intro hn
      have := congrArg List.length hn
      rw [List.length_map, List.length_take, List.length_nil] at this
      omega
  · intro x hx
    have hx : x ∈ filled look (decide (left < props.length)) ((props.take left).map fun e => look.ident e.1 ++ ['='] ++ T e.2) := hx
    have hm : ∀ y ∈ (props.take left).map (fun e => look.ident e.1 ++ ['='] ++ T e.2),
        ∃ c r, y = c :: r ∧ c.isWhitespace = false := by
      intro y hy
      obtain ⟨e, _, rfl⟩ := List.mem_map.1 hy
      obtain ⟨c, t, h1, h2⟩ := ho.ident e.1
      rw [h1]
      exact ⟨c, _, rfl, h2⟩
    unfold filled at hx
    split at hx
    · rcases List.mem_append.1 hx with hx | hx
      · exact hm x hx
      · rw [List.mem_singleton.1 hx]
        exact ho.fill
    · exact hm x hx
  · unfold writeKwargs
    rw [if_neg (by decide), List.map_map]
    show filled look _ _ = filled look _ _
    congr 1
    apply List.map_congr_left
    intro e _
    show look.ident e.1 ++ ['='] ++ w (sub e.2) = _
    rw [hT]

theorem object_written (hi : look.indent = none) (ho : Ordinary look) (hT : ∀ v, T v = w (sub v)) (cls : ReprCls)
    (maxprops : Nat) {o : JSObj Val} (hf : OneFill env maxprops o) {depth : Nat} (hw : w = write look depth) :
    textObject env look d (fun v => .ok (T v)) (className cls) maxprops o =
      .ok (write look (depth + 1) (reprObject env sub cls maxprops o)) := by
  obtain ⟨hinv, hone⟩ := hf
  have hlen := elementItems_length hinv
  unfold textObject reprObject
  rw [chars5, chars13, chars12, chars6, chars7, chars8, chars9, chars11]
  by_cases h0 : o.len = 0
  · rw [if_pos h0, if_pos h0]
    simp only [write_call, writeArg, writeKwargs, filled]
    refine okCongr ?_
    simp [commas, List.intercalate]
  · rw [if_neg h0, if_neg h0]
    have harr : collect (((JSObj.elementItems o.array).take maxprops).map fun e => after (look.index e.1 ++ [':', ' ']) (.ok (T e.2))) =
        .ok (((JSObj.elementItems o.array).take maxprops).map fun e => look.index e.1 ++ [':', ' '] ++ T e.2) :=
      collect_texts (fun e : Nat × Val => look.index e.1 ++ [':', ' '] ++ T e.2) _
    have hkw : collect ((o.props.take (maxprops - o.array.used.toNat)).map fun e => after (look.ident e.1 ++ ['=']) (.ok (T e.2))) =
        .ok ((o.props.take (maxprops - o.array.used.toNat)).map fun e => look.ident e.1 ++ ['='] ++ T e.2) :=
      collect_texts (fun e : Str × Val => look.ident e.1 ++ ['='] ++ T e.2) _
    have hps : collect ((o.props.take (maxprops - o.array.used.toNat)).map fun e => after (look.key e.1 ++ [':', ' ']) (.ok (T e.2))) =
        .ok ((o.props.take (maxprops - o.array.used.toNat)).map fun e => look.key e.1 ++ [':', ' '] ++ T e.2) :=
      collect_texts (fun e : Str × Val => look.key e.1 ++ [':', ' '] ++ T e.2) _
    -- the array pieces as a display
    have hdisp : ((JSObj.elementItems o.array).take maxprops).map (fun e => look.index e.1 ++ [':', ' '] ++ T e.2) =
        (((JSObj.elementItems o.array).take maxprops).map (fun e => (PKey.idx e.1, sub e.2))).map
          (fun e => keyText look e.1 ++ [':', ' '] ++ w e.2) := by
      rw [List.map_map]
      apply List.map_congr_left
      intro e _
      show look.index e.1 ++ [':', ' '] ++ T e.2 = look.index e.1 ++ [':', ' '] ++ w (sub e.2)
      rw [hT]
    simp only [harr, hkw, hps, okBind]
    by_cases hk : canBeKwargs env o.props = true
    · obtain ⟨hne, hhead, hwk⟩ := kwargs_written (T := T) (w := w) (sub := sub) ho hk (maxprops - o.array.used.toNat) hT
      rw [if_pos hk, if_pos hk]
      rw [join_plain hi, okBind]
      by_cases hu : o.array.used.toNat = 0
      · rw [if_pos hu]
        have hel : JSObj.elementItems o.array = [] := List.length_eq_zero_iff.mp (by rw [hlen, hu])
        have hem : (withFill look (decide (maxprops < o.array.used.toNat))
            (((JSObj.elementItems o.array).take maxprops).map fun e => look.index e.1 ++ [':', ' '] ++ T e.2)).isEmpty = true := by
          rw [hel, hu, decide_eq_false (by omega), List.take_nil]
          rfl
        rw [if_pos hem, inside_plain, joinWith_commas]
        simp only [write_call, writeArg, List.nil_append, ← hw]
        rw [hwk]
        simp only [className, filled_eq, List.append_assoc, List.cons_append, List.nil_append]
      · rw [if_neg hu]
        have hem : ¬ (withFill look (decide (maxprops < o.array.used.toNat))
            (((JSObj.elementItems o.array).take maxprops).map fun e => look.index e.1 ++ [':', ' '] ++ T e.2)).isEmpty = true := by
          unfold withFill
          split
          · simp
          · rename_i hl
            have hl : ¬ maxprops < o.array.used.toNat := by simpa using hl
            rw [List.isEmpty_iff]
            intro hn
            have := congrArg List.length hn
            rw [List.length_map, List.length_take, List.length_nil, hlen] at this
            omega
        rw [if_neg hem]
        have hgap := gap_space (commas_head hne hhead)
        rw [join_plain hi, okBind, joinWith_commas, joinWith_commas]
        erw [hgap]
        rw [okBind]
        simp only [write_call, writeArg, ← hw]
        rw [hwk, show ∀ (x : Text) l, [x] ++ l = x :: l from fun _ _ => rfl, commas_cons _ hne, hdisp]
        refine okCongr ?_
        rw [filled_eq]
        simp only [className, filled_eq, List.append_assoc, List.cons_append, List.nil_append]
    · rw [if_neg hk, if_neg hk]
      rw [join_plain hi, okBind, joinWith_commas]
      simp only [write_call, writeArg, writeKwargs, ← hw]
      have hkey : (o.props.take (maxprops - o.array.used.toNat)).map (fun e => look.key e.1 ++ [':', ' '] ++ T e.2) =
          ((o.props.take (maxprops - o.array.used.toNat)).map (fun e => (PKey.name e.1, sub e.2))).map
            (fun e => keyText look e.1 ++ [':', ' '] ++ w e.2) := by
        rw [List.map_map]
        apply List.map_congr_left
        intro e _
        show look.key e.1 ++ [':', ' '] ++ T e.2 = look.key e.1 ++ [':', ' '] ++ w (sub e.2)
        rw [hT]
      have hpieces : withFill look (decide (maxprops < o.array.used.toNat))
            (((JSObj.elementItems o.array).take maxprops).map fun e => look.index e.1 ++ [':', ' '] ++ T e.2) ++
          withFill look (!o.props.isEmpty && decide (maxprops - o.array.used.toNat < o.props.length))
            ((o.props.take (maxprops - o.array.used.toNat)).map fun e => look.key e.1 ++ [':', ' '] ++ T e.2) =
          filled look (decide (maxprops < o.array.used.toNat) ||
              (!o.props.isEmpty && decide (maxprops - o.array.used.toNat < o.props.length)))
            ((((JSObj.elementItems o.array).take maxprops).map (fun e => (PKey.idx e.1, sub e.2)) ++
              (o.props.take (maxprops - o.array.used.toNat)).map (fun e => (PKey.name e.1, sub e.2))).map
                (fun e => keyText look e.1 ++ [':', ' '] ++ w e.2)) := by
        rw [hdisp, hkey, List.map_append]
        rcases hone with hp | hp | hp
        · rw [hp]
          simp only [List.isEmpty_nil, Bool.not_true, Bool.false_and, Bool.or_false, List.take_nil, List.map_nil, List.append_nil]
          unfold withFill filled
          simp
        · exact absurd hp hk
        · rw [decide_eq_false (by omega), Bool.false_or]
          unfold withFill filled
          rw [if_neg (by decide)]
          split <;> simp only [List.append_assoc]
      refine okCongr ?_
      rw [hpieces]
      simp only [filled, className, Bool.false_eq_true, if_false, List.map_nil, List.append_nil, commas_one, List.append_assoc, List.cons_append, List.nil_append]

theorem array_written (hi : look.indent = none) (ho : Ordinary look) (hT : ∀ v, T v = w (sub v)) {o : JSObj Val}
    (hf : ∀ s, o.array = .sparse s → OneFill env env.maxjsarray o) {depth : Nat} (hw : w = write look depth) :
    textArray env look d (fun v => .ok (T v)) o = .ok (write look (depth + 1) (reprArray env sub o)) := by
  unfold textArray reprArray
  rw [chars17, chars1, chars12, chars13, chars18, chars7, chars19, chars10, chars11, chars20, chars9, chars15]
  by_cases h0 : o.len = 0
  · rw [if_pos h0, if_pos h0]
    simp only [write_call, writeArg, writeKwargs, filled]
    refine okCongr ?_
    simp [commas, List.intercalate, className]
  · rw [if_neg h0, if_neg h0]
    cases hoa : o.array with
    | sparse s => exact object_written hi ho hT .array _ (hf s hoa) hw
    | dense a =>
      dsimp only
      have harr : collect ((a.items.take env.maxjsarray).map fun v => Except.ok (T (elemVal v))) =
          .ok ((a.items.take env.maxjsarray).map fun v => T (elemVal v)) := collect_texts _ _
      have hkw : collect ((o.props.take (env.maxjsarray - a.items.length)).map fun e => after (look.ident e.1 ++ ['=']) (.ok (T e.2))) =
          .ok ((o.props.take (env.maxjsarray - a.items.length)).map fun e => look.ident e.1 ++ ['='] ++ T e.2) :=
        collect_texts (fun e : Str × Val => look.ident e.1 ++ ['='] ++ T e.2) _
      have hps : collect ((o.props.take (env.maxjsarray - a.items.length)).map fun e => after (look.key e.1 ++ [':', ' ']) (.ok (T e.2))) =
          .ok ((o.props.take (env.maxjsarray - a.items.length)).map fun e => look.key e.1 ++ [':', ' '] ++ T e.2) :=
        collect_texts (fun e : Str × Val => look.key e.1 ++ [':', ' '] ++ T e.2) _
      have hdisp : (a.items.take env.maxjsarray).map (fun v => T (elemVal v)) =
          ((a.items.take env.maxjsarray).map (fun v => sub (elemVal v))).map w := by
        rw [List.map_map]
        apply List.map_congr_left
        intro e _
        exact hT _
      have hem : (withFill look (decide (env.maxjsarray < a.items.length)) ((a.items.take env.maxjsarray).map fun v => T (elemVal v))).isEmpty
          = decide (a.items.length = 0) := by
        unfold withFill
        by_cases hz : a.items.length = 0
        · rw [decide_eq_true hz, decide_eq_false (by omega), List.length_eq_zero_iff.1 hz, List.take_nil]
          rfl
        · rw [decide_eq_false hz]
          by_cases hl : env.maxjsarray < a.items.length
          · rw [decide_eq_true hl, if_pos rfl]
            simp
          · rw [decide_eq_false hl, if_neg (by decide), List.take_of_length_le (by omega)]
            cases hit : a.items with
            | nil => rw [hit] at hz; exact absurd rfl hz
            | cons x l => rfl
      simp only [harr, hkw, hps, okBind]
      by_cases hk : canBeKwargs env o.props = true
      · obtain ⟨hne, hhead, hwk⟩ := kwargs_written (T := T) (w := w) (sub := sub) ho hk (env.maxjsarray - a.items.length) hT
        rw [if_pos hk, if_pos hk]
        rw [join_plain hi, okBind, hem]
        by_cases hu : a.items.length = 0
        · rw [if_pos hu, if_pos (decide_eq_true hu), inside_plain, joinWith_commas]
          simp only [write_call, writeArg, List.nil_append, ← hw]
          rw [hwk]
          simp only [className, filled_eq, List.append_assoc, List.cons_append, List.nil_append]
        · rw [if_neg hu, if_neg (by simpa using hu)]
          have hgap := gap_space (commas_head hne hhead)
          rw [join_plain hi, okBind, joinWith_commas, joinWith_commas]
          erw [hgap]
          rw [okBind]
          simp only [write_call, writeArg, ← hw]
          rw [hwk, show ∀ (x : Text) l, [x] ++ l = x :: l from fun _ _ => rfl, commas_cons _ hne, hdisp]
          refine okCongr ?_
          rw [filled_eq]
          simp only [className, filled_eq, List.append_assoc, List.cons_append, List.nil_append]
      · rw [if_neg hk, if_neg hk]
        have hkey : (o.props.take (env.maxjsarray - a.items.length)).map (fun e => look.key e.1 ++ [':', ' '] ++ T e.2) =
            ((o.props.take (env.maxjsarray - a.items.length)).map (fun e => (e.1, sub e.2))).map
              (fun e => look.key e.1 ++ [':', ' '] ++ w e.2) := by
          rw [List.map_map]
          apply List.map_congr_left
          intro e _
          show look.key e.1 ++ [':', ' '] ++ T e.2 = look.key e.1 ++ [':', ' '] ++ w (sub e.2)
          rw [hT]
        have hpe : (withFill look (!o.props.isEmpty && decide (env.maxjsarray - a.items.length < o.props.length))
            ((o.props.take (env.maxjsarray - a.items.length)).map fun e => look.key e.1 ++ [':', ' '] ++ T e.2)).isEmpty
              = o.props.isEmpty := by
          unfold withFill
          cases hp : o.props with
          | nil => simp
          | cons e ps =>
            by_cases hl : env.maxjsarray - a.items.length < (e :: ps).length
            · rw [decide_eq_true hl]
              simp
            · rw [decide_eq_false hl, List.take_of_length_le (by omega)]
              simp
        rw [join_plain hi, okBind, hem]
        by_cases hu : a.items.length = 0
        · rw [if_pos hu, if_pos (decide_eq_true hu), inside_plain, joinWith_commas, filled_eq, hkey]
          simp only [write_call, writeArg, writeKwargs, ← hw]
          refine okCongr ?_
          have hm : ((o.props.take (env.maxjsarray - a.items.length)).map (fun e => (e.1, sub e.2))).map
              (fun e => look.key e.1 ++ [':', ' '] ++ w e.2) =
            (((o.props.take (env.maxjsarray - a.items.length)).map (fun e => (e.1, sub e.2))).map
              (fun e => (PKey.name e.1, e.2))).map (fun e => keyText look e.1 ++ [':', ' '] ++ w e.2) := by
            rw [List.map_map, List.map_map, List.map_map]
            rfl
          rw [hm]
          simp only [filled, className, Bool.false_eq_true, if_false, List.map_nil, List.append_nil, commas_one, List.append_assoc, List.cons_append, List.nil_append]
        · rw [if_neg hu, if_neg (by simpa using hu)]
          rw [join_plain hi, okBind, hpe]
          by_cases hp : o.props.isEmpty = true
          · rw [if_pos hp, if_pos hp, joinWith_commas, filled_eq, hdisp]
            simp only [write_call, writeArg, writeKwargs, ← hw]
            refine okCongr ?_
            simp only [filled, className, Bool.false_eq_true, if_false, List.map_nil, List.append_nil, commas_one, List.append_assoc, List.cons_append, List.nil_append]
          · rw [if_neg hp, if_neg hp, joinWith_commas, joinWith_commas, filled_eq, filled_eq, hdisp, hkey]
            simp only [write_call, writeArg, writeKwargs, ← hw]
            have hp' : o.props.isEmpty = false := by simpa using hp
            rw [hp', if_pos trivial, List.singleton_append, commas_cons _ (by simp), commas_one]
            refine okCongr ?_
            simp only [className, Bool.not_false, Bool.true_and, List.append_assoc, List.cons_append, List.nil_append, if_pos]

theorem map_written (hi : look.indent = none) (hT : ∀ v, T v = w (sub v)) (es : List (Val × Val)) {depth : Nat}
    (hw : w = write look depth) :
    textMap env look d (fun v => .ok (T v)) es = .ok (write look (depth + 1) (reprMap env sub es)) := by
  unfold textMap reprMap
  rw [chars21, chars22, chars9, chars7, chars23, chars10]
  by_cases h0 : es.length = 0
  · have hn := List.length_eq_zero_iff.1 h0
    subst hn
    rw [if_pos h0, if_pos h0, write_call]
    refine okCongr ?_
    simp only [writeArg, writeKwargs, filled]
    simp [commas, List.intercalate, className]
  · rw [if_neg h0, if_neg (by simpa using h0)]
    cases hd : isDictEquivalent env es with
    | true =>
      have hc : collect ((es.take env.maxdict).map fun e => entryText true (.ok (T e.1)) (.ok (T e.2))) =
          .ok ((es.take env.maxdict).map fun e => T e.1 ++ [':', ' '] ++ T e.2) := by
        simp only [entry_dict]
        exact collect_texts (fun e : Val × Val => T e.1 ++ [':', ' '] ++ T e.2) _
      dsimp only
      rw [hc, okBind]
      rw [join_plain hi, okBind, joinWith_commas, filled_eq]
      simp only [write_call, writeArg, writeKwargs, ← hw]
      have hm : (es.take env.maxdict).map (fun e => T e.1 ++ [':', ' '] ++ T e.2) =
          ((es.take env.maxdict).map (fun e => (sub e.1, sub e.2))).map (fun e => w e.1 ++ [':', ' '] ++ w e.2) := by
        rw [List.map_map]
        apply List.map_congr_left
        intro e _
        show T e.1 ++ [':', ' '] ++ T e.2 = w (sub e.1) ++ [':', ' '] ++ w (sub e.2)
        rw [hT, hT]
      rw [hm]
      refine okCongr ?_
      simp only [filled, className, Bool.false_eq_true, if_false, List.map_nil, List.append_nil, commas_one, List.append_assoc, List.cons_append, List.nil_append]
    | false =>
      have hc : collect ((es.take env.maxdict).map fun e => entryText false (.ok (T e.1)) (.ok (T e.2))) =
          .ok ((es.take env.maxdict).map fun e => ['('] ++ T e.1 ++ [',', ' '] ++ T e.2 ++ [')']) := by
        simp only [entry_list]
        exact collect_texts (fun e : Val × Val => ['('] ++ T e.1 ++ [',', ' '] ++ T e.2 ++ [')']) _
      dsimp only
      rw [hc, okBind]
      rw [join_plain hi, okBind, joinWith_commas, filled_eq]
      simp only [write_call, writeArg, writeKwargs, ← hw]
      have hm : (es.take env.maxdict).map (fun e => ['('] ++ T e.1 ++ [',', ' '] ++ T e.2 ++ [')']) =
          ((es.take env.maxdict).map (fun e => (sub e.1, sub e.2))).map
            (fun e => ['('] ++ w e.1 ++ [',', ' '] ++ w e.2 ++ [')']) := by
        rw [List.map_map]
        apply List.map_congr_left
        intro e _
        show ['('] ++ T e.1 ++ [',', ' '] ++ T e.2 ++ [')'] = ['('] ++ w (sub e.1) ++ [',', ' '] ++ w (sub e.2) ++ [')']
        rw [hT, hT]
      rw [hm]
      refine okCongr ?_
      simp only [filled, className, Bool.false_eq_true, if_false, List.map_nil, List.append_nil, commas_one, List.append_assoc, List.cons_append, List.nil_append]

theorem set_written (hi : look.indent = none) (hT : ∀ v, T v = w (sub v)) (ms : List Val) {depth : Nat}
    (hw : w = write look depth) :
    textSet env look d (fun v => .ok (T v)) ms = .ok (write look (depth + 1) (reprSet env sub ms)) := by
  unfold textSet reprSet
  rw [chars24, chars25, chars10, chars7]
  by_cases h0 : ms.length = 0
  · have hn := List.length_eq_zero_iff.1 h0
    subst hn
    rw [if_pos h0, if_pos h0, write_call]
    refine okCongr ?_
    simp only [writeArg, writeKwargs, filled]
    simp [commas, List.intercalate, className]
  · rw [if_neg h0, if_neg (by simpa using h0)]
    have hc : collect ((ms.take env.maxset).map fun v => .ok (T v)) = .ok ((ms.take env.maxset).map T) := collect_texts T _
    rw [hc, okBind]
    dsimp only
    rw [join_plain hi, okBind, joinWith_commas, filled_eq]
    simp only [write_call, writeArg, writeKwargs, ← hw]
    have hm : (ms.take env.maxset).map T = ((ms.take env.maxset).map sub).map w := by
      rw [List.map_map]
      apply List.map_congr_left
      intro e _
      exact hT e
    rw [hm]
    refine okCongr ?_
    simp only [filled, className, Bool.false_eq_true, if_false, List.map_nil, List.append_nil, commas_one, List.append_assoc, List.cons_append, List.nil_append]

theorem error_written (hi : look.indent = none) (hT : ∀ v, T v = w (sub v)) (hne : ∀ s, T (.str s) ≠ [])
    {enumT : Str → Text} {enum : Str → PExpr} (hE : ∀ s, enumT s = w (enum s)) (i : Id) (name : Str) (message stack : Option Str)
    (cause : Val) {depth : Nat} (hw : w = write look depth) :
    textError env look d (fun v => .ok (T v)) (fun s => .ok (enumT s)) i name message stack cause =
      .ok (write look (depth + 1) (reprError env sub enum i name message stack cause)) := by
  unfold textError reprError
  rw [charsName, charsStack, charsCause, chars26, chars7]
  simp only [write_error, ← hw]
  -- the arguments as texts
  have hname : errorArg ['n', 'a', 'm', 'e', '='] (if name = errorName then none
        else some (if env.enumName i = true then .ok (enumT name) else .ok (T (.str name)))) =
      (writeOpt w ['n', 'a', 'm', 'e'] (if name = errorName then none
        else if env.enumName i = true then some (enum name) else some (sub (.str name)))).map .ok := by
    by_cases h1 : name = errorName
    · rw [if_pos h1, if_pos h1]
      rfl
    · rw [if_neg h1, if_neg h1]
      by_cases h2 : env.enumName i = true
      · rw [if_pos h2, if_pos h2, hE]
        rfl
      · rw [if_neg h2, if_neg h2, hT]
        rfl
  have hstack : errorArg ['s', 't', 'a', 'c', 'k', '='] (stack.map fun s => .ok (T (.str s))) =
      (writeOpt w ['s', 't', 'a', 'c', 'k'] (stack.map fun s => sub (.str s))).map .ok := by
    cases stack with
    | none => rfl
    | some s =>
      simp only [Option.map_some]
      rw [hT]
      rfl
  have hcause : errorArg ['c', 'a', 'u', 's', 'e', '='] (if cause = .null then none else some (.ok (T cause))) =
      (writeOpt w ['c', 'a', 'u', 's', 'e'] (if cause = .null then none else some (sub cause))).map .ok := by
    by_cases h1 : cause = .null
    · rw [if_pos h1, if_pos h1]
      rfl
    · rw [if_neg h1, if_neg h1, hT]
      rfl
  rw [hname, hstack, hcause]
  have hopt : ∀ n e, ∀ x ∈ writeOpt w n e, x ≠ [] := by
    intro n e x hx
    cases e with
    | none => exact absurd hx List.not_mem_nil
    | some e =>
      rw [List.mem_singleton.1 hx]
      simp
  have hmsg : w (sub (.str (message.getD []))) ≠ [] := by
    rw [← hT]
    exact hne _
  generalize hA : writeOpt w ['n', 'a', 'm', 'e'] _ = A
  generalize hB : writeOpt w ['s', 't', 'a', 'c', 'k'] _ = B
  generalize hC : writeOpt w ['c', 'a', 'u', 's', 'e'] _ = C
  have hcol : ∀ ts : List Text, collect (ts.map .ok) = .ok ts := by
    intro ts
    have := collect_texts (fun t : Text => t) ts
    rw [List.map_id'] at this
    exact this
  have hall : ([Except.ok (T (.str (message.getD [])))] ++ A.map .ok ++ B.map .ok ++ C.map .ok : List (Except PyExc Text)) =
      ([w (sub (.str (message.getD [])))] ++ A ++ B ++ C).map .ok := by
    rw [hT]
    simp only [List.map_append, List.map_cons, List.map_nil]
  rw [hall, hcol]
  have hfil : ([w (sub (.str (message.getD [])))] ++ A ++ B ++ C).filter (!·.isEmpty) =
      [w (sub (.str (message.getD [])))] ++ A ++ B ++ C := by
    rw [List.filter_eq_self]
    intro x hx
    have hx' : x ≠ [] := by
      simp only [List.mem_append, List.mem_singleton] at hx
      rcases hx with ((hx | hx) | hx) | hx
      · rw [hx]; exact hmsg
      · rw [← hA] at hx; exact hopt _ _ x hx
      · rw [← hB] at hx; exact hopt _ _ x hx
      · rw [← hC] at hx; exact hopt _ _ x hx
    cases x with
    | nil => exact absurd rfl hx'
    | cons c x => rfl
  rw [okBind, hfil, join_plain hi, okBind, joinWith_commas]
  refine okCongr ?_
  simp only [className, filled_eq, List.append_assoc, List.cons_append, List.nil_append]

end

theorem written {look : Look} (hi : look.indent = none) (ho : Ordinary look) {env : ReprEnv} (hh : OneFillEach env) (m : Nat) :
    ∀ (level : Nat) (running : List Id) (v : Val),
      text env look m level running v = .ok (write look (level + 1) (repr1 env level running v))
  | 0, _, _ => by
    simp only [text, repr1, write_lit, write_cut, write_fill, write_other]
  | level + 1, running, v => by
    have ih := written hi ho hh m level
    cases v with
    | obj i =>
      simp only [text, repr1]
      by_cases hr : i ∈ running
      · simp only [hr, if_true, write_lit, write_cut, write_fill, write_other]
      · simp only [hr, if_false]
        have hsub : text env look m level (i :: running) =
            fun v => .ok (write look (level + 1) (repr1 env level (i :: running) v)) := funext fun v => ih _ v
        cases hn : env.heap[i]? with
        | none => simp only [write_lit, write_cut, write_fill, write_other]
        | some n =>
          simp only [hsub]
          unfold textNode reprNode
          cases n with
          | jsobj o =>
            exact object_written hi ho (fun v => rfl) .object _ (hh.1 i o hn) rfl
          | jsarr o =>
            refine array_written hi ho (fun v => rfl) (fun s hs => ?_) rfl
            obtain ⟨arr, ps⟩ := o
            have hs : arr = .sparse s := hs
            subst hs
            exact hh.2 i s ps hn
          | jsmap es => exact map_written hi (fun v => rfl) es rfl
          | jsset ms => exact set_written hi (fun v => rfl) ms rfl
          | error name message stack cause =>
            refine error_written (enumT := fun s => if level = 0 then look.fill else look.enumText s) hi (fun v => rfl) ?_ ?_
              i name message stack cause rfl
            · intro s
              have hfill : look.fill ≠ [] := by
                obtain ⟨c, t, h, _⟩ := ho.fill
                rw [h]
                simp
              cases level with
              | zero => simpa only [repr1, write_lit, write_cut, write_fill, write_other] using hfill
              | succ k =>
                simp only [repr1]
                split <;> simpa only [write_lit, write_cut, write_fill, write_other] using ho.lit _
            · intro s
              show _ = write look (level + 1) (if level = 0 then PExpr.fill else PExpr.enumMember s)
              by_cases h0 : level = 0
              · rw [if_pos h0, if_pos h0]
                rfl
              · rw [if_neg h0, if_neg h0]
                rfl
          | _ => simp only [write_lit, write_cut, write_fill, write_other]
    | _ =>
      simp only [text, repr1]
      split <;> simp only [write_lit, write_cut, write_fill, write_other]

/-- Writing an expression does not depend on the indent. -/
theorem write_indent (look : Look) (n : Option Int) : ∀ depth, write { look with indent := n } depth = write look depth
  | 0 => by
    funext e
    rfl
  | depth + 1 => by
    have ih := write_indent look n depth
    have hf : filled { look with indent := n } = filled look := rfl
    have hk : keyText { look with indent := n } = keyText look := rfl
    have ha : writeArg { look with indent := n } = writeArg look := by
      funext w a
      unfold writeArg
      rw [hf, hk]
    have hw : writeKwargs { look with indent := n } = writeKwargs look := by
      funext w s k m
      unfold writeKwargs
      rw [hf]
    funext e
    cases e with
    | call cls arg star kwargs more => rw [write_call, write_call, ih, ha, hw]
    | errorCall message name stack cause => rw [write_error, write_error, ih]
    | _ => rfl

end V8.ReprText
