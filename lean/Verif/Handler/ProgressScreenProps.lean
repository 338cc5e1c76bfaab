import Verif.Handler.ProgressScreen
import Verif.Time.Lemmas
import Verif.Xml.MoreProps

/-
C119: what is on the terminal while a file is read and afterwards.
-/
namespace Osmium
open Spec Text

/-! ### Texts -/

theorem natDec_mono {a b : Nat} (h : a ≤ b) : (natDec a).length ≤ (natDec b).length := by
  obtain ⟨c, cs, e, -⟩ := natDec_cons b
  refine natDec_length_le a _ (by rw [e]; simp) ?_
  exact Nat.lt_of_le_of_lt h (natDec_lt_pow_length b)

theorem countsText_line (n w r : Nat) : countsText n w r = countsLine n w r := by
  have e : ∀ k : Nat, intDec (k : Int) = natDec k := fun k => by
    unfold intDec; rw [if_neg (by omega)]; rfl
  unfold countsText countsLine bracketed
  rw [e, e, e]
  by_cases hr : r = 0
  · subst hr
    by_cases hw : w = 0
    · subst hw; simp
    · rw [if_pos (by omega), if_neg (by omega), if_neg (by omega), if_pos hw]; simp
  · rw [if_pos (by omega), if_pos (by omega), if_pos hr]; simp

theorem countsLine_mono {n w r n' w' r' : Nat} (h1 : n ≤ n') (h2 : w ≤ w') (h3 : r ≤ r') :
    (countsLine n w r).length ≤ (countsLine n' w' r').length := by
  have a := natDec_mono h1
  have b := natDec_mono h2
  have c := natDec_mono h3
  unfold countsLine bracketed
  split
  · rw [if_pos (by omega)]; simp; omega
  · split
    · split
      · simp; omega
      · rw [if_pos (by omega)]; simp; omega
    · split
      · simp; omega
      · split
        · simp; omega
        · simp; omega

theorem rateText_line (k : PKind) (v : Int) : rateText (k, v) = rateLine k v := by
  unfold rateText rateLine kindWord
  cases k <;> simp

theorem averageText_line (a : List (PKind × Int)) :
    "  Average: ".toList ++ a.flatMap averageText ++ "per second".toList = averageLine a := by
  unfold averageLine
  congr 2

/-- The rate without its blanks is not wider than what `final` wipes. -/
theorem rateLine_width (k : PKind) {v : Int} (h : -2147483648 ≤ v ∧ v ≤ 2147483647) :
    ∃ t, rateLine k v = t ++ List.replicate 3 ' ' ∧ t.length ≤ 35 := by
  have hv : (intDec v).length ≤ 11 := by
    have := natDec_length_le v.natAbs 10 (by decide) (by omega)
    unfold intDec
    split
    · rw [List.length_cons]; omega
    · omega
  refine ⟨" (".toList ++ intDec v ++ (match k with | .node => " Nodes" | .way => " Ways" | .relation => " Relations").toList ++
    " per second)".toList, ?_, ?_⟩
  · unfold rateLine
    rw [List.append_assoc _ " per second)".toList]
    rfl
  · cases k <;> simp <;> omega

/-- No control characters. -/
def NoControl (t : List Char) : Prop := ∀ c ∈ t, c ≠ '\x1b' ∧ c ≠ '\r' ∧ c ≠ '\n'

theorem NoControl.append {a b : List Char} (ha : NoControl a) (hb : NoControl b) : NoControl (a ++ b) := by
  intro c hc
  rcases List.mem_append.1 hc with h | h
  · exact ha c h
  · exact hb c h

theorem noControl_natDec (n : Nat) : NoControl (natDec n) := by
  intro c hc
  have := natDec_digits n c hc
  refine ⟨?_, ?_, ?_⟩ <;> rintro rfl <;> exact absurd this (by decide)

theorem noControl_intDec (n : Int) : NoControl (intDec n) := by
  unfold intDec
  split
  · exact NoControl.append (a := ['-']) (by unfold NoControl; decide) (noControl_natDec _)
  · exact noControl_natDec _

theorem noControl_bracketed (n : Nat) : NoControl (bracketed n) := by
  unfold bracketed
  exact ((NoControl.append (a := ['[']) (by unfold NoControl; decide) (noControl_natDec n))).append (by unfold NoControl; decide)

theorem noControl_countsLine (n w r : Nat) : NoControl (countsLine n w r) := by
  have sp : ∀ k, NoControl (' ' :: bracketed k) := fun k =>
    NoControl.append (a := [' ']) (by unfold NoControl; decide) (noControl_bracketed k)
  unfold countsLine
  split
  · have := ((noControl_bracketed n).append (sp w)).append (sp r)
    exact this
  · split
    · exact (noControl_bracketed n).append (sp w)
    · exact noControl_bracketed n

theorem noControl_rateLine (k : PKind) (v : Int) : NoControl (rateLine k v) := by
  unfold rateLine
  refine ((NoControl.append (by unfold NoControl; decide) (noControl_intDec v)).append ?_).append (by unfold NoControl; decide)
  cases k <;> (unfold NoControl; decide)

theorem noControl_averageLine (a : List (PKind × Int)) : NoControl (averageLine a) := by
  unfold averageLine
  refine (NoControl.append (by unfold NoControl; decide) ?_).append (by unfold NoControl; decide)
  intro c hc
  obtain ⟨p, -, hc⟩ := List.mem_flatMap.1 hc
  refine (noControl_intDec p.2).append ?_ c hc
  cases p.1 <;> (unfold NoControl; decide)

theorem noControl_blanks (n : Nat) : NoControl (List.replicate n ' ') := by
  intro c hc
  rw [(List.mem_replicate.1 hc).2]
  decide

/-! ### The terminal -/

theorem write_append (s : Screen) (a b : List Char) : s.write (a ++ b) = (s.write a).write b := List.foldl_append ..

theorem write_plain (s : Screen) (t : List Char) (ht : NoControl t) (he : s.escape = none) (hc : s.col ≤ s.line.length) :
    s.write t = { s with line := s.line.take s.col ++ t ++ s.line.drop (s.col + t.length), col := s.col + t.length } := by
  induction t generalizing s with
  | nil =>
    obtain ⟨a, l, c, k, e⟩ := s
    simp [Screen.write]
  | cons x t ih =>
    have hx := ht x List.mem_cons_self
    obtain ⟨a, l, c, k, e⟩ := s
    simp only at he hc
    subst he
    have hput : Screen.put ⟨a, l, c, k, none⟩ x = ⟨a, putAt l c x, c + 1, k, none⟩ := by
      simp [Screen.put, hx.1, hx.2.1, hx.2.2]
    have hstep : Screen.write ⟨a, l, c, k, none⟩ (x :: t) = Screen.write ⟨a, putAt l c x, c + 1, k, none⟩ t := by
      show Screen.write (Screen.put ⟨a, l, c, k, none⟩ x) t = _
      rw [hput]
    have hl : putAt l c x = l.take c ++ x :: l.drop (c + 1) := by
      unfold putAt
      split
      · rename_i h
        rw [List.set_eq_take_append_cons_drop, if_pos h]
      · have : c = l.length := by omega
        subst this
        simp
    have hlen : (l.take c).length = c := by rw [List.length_take]; omega
    rw [hstep, ih _ (fun y hy => ht y (List.mem_cons_of_mem _ hy)) rfl]
    · simp only [Screen.mk.injEq, true_and, and_true, List.length_cons]
      constructor
      · rw [hl]
        have h1 : (l.take c ++ x :: l.drop (c + 1)).take (c + 1) = l.take c ++ [x] := by
          rw [List.take_append, hlen, List.take_of_length_le (by omega)]
          have : c + 1 - c = 1 := by omega
          rw [this]; rfl
        have h2 : (l.take c ++ x :: l.drop (c + 1)).drop (c + 1 + t.length) = l.drop (c + (t.length + 1)) := by
          rw [List.drop_append, hlen, List.drop_of_length_le (by omega)]
          have : c + 1 + t.length - c = t.length + 1 := by omega
          rw [this, List.nil_append, List.drop_succ_cons, List.drop_drop]
          congr 1
          omega
        rw [h1, h2]
        simp
      · omega
    · simp only
      rw [hl, List.length_append, hlen, List.length_cons]
      omega

/-- A text followed by a carriage return. -/
theorem write_line (s : Screen) (t : List Char) (ht : NoControl t) (he : s.escape = none) (hc : s.col = 0) :
    s.write (t ++ ['\r']) = { s with line := t ++ s.line.drop t.length, col := 0 } := by
  rw [write_append, write_plain s t ht he (by omega), hc]
  obtain ⟨a, l, c, k, e⟩ := s
  simp only at he hc
  subst he hc
  simp [Screen.write, Screen.put]

/-! ### The outputs of a run -/

theorem screen_bind_ok {α β : Type} {x : Res α} {f : α → Res β} {b : β} (h : (x >>= f) = .ok b) :
    ∃ a, x = .ok a ∧ f a = .ok b := by
  cases x with
  | error e => cases h
  | ok a => exact ⟨a, rfl, h⟩

theorem perSecond_range {c d v : Int} (h : perSecond c d = .ok v) : -2147483648 ≤ v ∧ v ≤ 2147483647 := by
  unfold perSecond at h
  split at h
  · cases h
  · dsimp only at h
    split at h
    · rename_i h'
      cases h
      exact h'
    · cases h

theorem updateDisplay_some {s : ProgressSt} {t : Stamp} {o : List POut}
    (hp : s.nodes > 0 ∨ s.ways > 0 ∨ s.relations > 0) (h : updateDisplay s true t = .ok o) :
    ∃ k v, o = [.display s.nodes s.ways s.relations (some (k, v))] ∧ -2147483648 ≤ v ∧ v ≤ 2147483647 := by
  unfold updateDisplay at h
  rw [if_pos rfl] at h
  split at h
  · obtain ⟨v, hv, h⟩ := screen_bind_ok h
    cases h
    exact ⟨_, _, rfl, perSecond_range hv⟩
  · split at h
    · obtain ⟨v, hv, h⟩ := screen_bind_ok h
      cases h
      exact ⟨_, _, rfl, perSecond_range hv⟩
    · split at h
      · obtain ⟨v, hv, h⟩ := screen_bind_ok h
        cases h
        exact ⟨_, _, rfl, perSecond_range hv⟩
      · omega

/-- A display with a rate whose counts are at most these. -/
def DisplayUpTo (N W R : Nat) (x : POut) : Prop :=
  ∃ (n w r : Nat) (k : PKind) (v : Int), x = .display n w r (some (k, v)) ∧ n ≤ N ∧ w ≤ W ∧ r ≤ R ∧
    -2147483648 ≤ v ∧ v ≤ 2147483647

theorem DisplayUpTo.mono {N W R N' W' R' : Nat} {x : POut} (h : DisplayUpTo N W R x) (h1 : N ≤ N') (h2 : W ≤ W')
    (h3 : R ≤ R') : DisplayUpTo N' W' R' x := by
  obtain ⟨n, w, r, k, v, e, a, b, c, d⟩ := h
  exact ⟨n, w, r, k, v, e, by omega, by omega, by omega, d⟩

theorem countKind_append (k : PKind) (a b : List PEvent) : countKind k (a ++ b) = countKind k a + countKind k b := by
  unfold countKind
  rw [List.filter_append, List.length_append]

theorem progressCount_displays {s s' : ProgressSt} {step : Int} {seen : List PEvent} {e : PEvent} {o : List POut}
    (hs : s.Has step seen) (hstep : 0 < step ∧ step < 2147483648) (hn : seen.length + 1 < 18446744073709551616)
    (h : progressCount s e.kind e.t1 e.t2 = .ok (s', o)) :
    ∀ x ∈ o, DisplayUpTo (countKind .node (seen ++ [e])) (countKind .way (seen ++ [e]))
      (countKind .relation (seen ++ [e])) x := by
  have hh := (progressCount_has hs hstep hn h).1.1
  have f2 : (s.noteFirst e.t1 e.kind).tty = true := by cases e.kind <;> exact hs.2.2
  unfold progressCount at h
  dsimp only at h
  rw [if_pos f2] at h
  unfold progressShow at h
  split at h
  · cases h
  · split at h
    · obtain ⟨d, hd, h⟩ := screen_bind_ok h
      cases h
      unfold counts at hh
      simp only [Prod.mk.injEq] at hh
      obtain ⟨c1, c2, c3⟩ := hh
      have hpos : 0 < countKind .node (seen ++ [e]) ∨ 0 < countKind .way (seen ++ [e]) ∨
          0 < countKind .relation (seen ++ [e]) := by
        rw [countKind_snoc, countKind_snoc, countKind_snoc]
        cases e.kind <;> simp
      obtain ⟨k, v, rfl, hv⟩ := updateDisplay_some (by rw [c1, c2, c3]; omega) hd
      intro x hx
      rw [List.mem_singleton] at hx
      rw [c1, c2, c3] at hx
      exact ⟨_, _, _, k, v, hx, Nat.le_refl _, Nat.le_refl _, Nat.le_refl _, hv⟩
    · cases h
      intro x hx
      cases hx

theorem progressObjects_displays {s s' : ProgressSt} {step : Int} {seen es : List PEvent} {o : List POut}
    (hs : s.Has step seen) (hstep : 0 < step ∧ step < 2147483648)
    (hn : (seen ++ es).length < 18446744073709551616) (h : progressObjects s es = .ok (s', o)) :
    ∀ x ∈ o, DisplayUpTo (countKind .node (seen ++ es)) (countKind .way (seen ++ es))
      (countKind .relation (seen ++ es)) x := by
  induction es generalizing s seen o with
  | nil => cases h; intro x hx; cases hx
  | cons e es ih =>
    unfold progressObjects at h
    obtain ⟨⟨s1, a⟩, h1, h⟩ := screen_bind_ok h
    obtain ⟨⟨s2, b⟩, h2, h⟩ := screen_bind_ok h
    cases h
    rw [List.length_append, List.length_cons] at hn
    have k1 := (progressCount_has hs hstep (by omega) h1).1
    have k2 := progressCount_displays hs hstep (by omega) h1
    have hn' : (seen ++ [e] ++ es).length < 18446744073709551616 := by
      simp only [List.length_append, List.length_cons, List.length_nil]; omega
    have j := ih k1 hn' h2
    have e1 : seen ++ e :: es = seen ++ [e] ++ es := by simp
    rw [e1]
    intro x hx
    rcases List.mem_append.1 hx with hx | hx
    · refine (k2 x hx).mono ?_ ?_ ?_ <;> rw [countKind_append _ (seen ++ [e]) es] <;> omega
    · exact j x hx

/-- The outputs of a run. -/
theorem progress_shape {step : Int} {t0 t1 : Stamp} {es : List PEvent} {o : List POut}
    (hstep : 0 < step ∧ step < 2147483648) (hn : es.length < 18446744073709551616)
    (h : progressRun step true t0 es t1 = .ok o) :
    ∃ ds a, o = .hideCursor :: .display 0 0 0 none :: ds ++
        [.display (countKind .node es) (countKind .way es) (countKind .relation es) none, .average a, .showCursor] ∧
      (∀ x ∈ ds, DisplayUpTo (countKind .node es) (countKind .way es) (countKind .relation es) x) := by
  unfold progressRun at h
  obtain ⟨a, h1, h⟩ := screen_bind_ok h
  obtain ⟨⟨s, b⟩, h2, h⟩ := screen_bind_ok h
  obtain ⟨c, h3, h⟩ := screen_bind_ok h
  cases h
  have e1 : a = [.hideCursor, .display 0 0 0 none] := by
    have : progressInit (ProgressSt.new step true) t0 = .ok [.hideCursor, .display 0 0 0 none] := rfl
    rw [this] at h1
    cases h1
    rfl
  have hs0 : (ProgressSt.new step true).Has step [] := ⟨rfl, rfl, rfl⟩
  have k1 := (progressObjects_has (seen := []) hs0 hstep (by simpa using hn) h2).1
  have k2 := progressObjects_displays (seen := []) hs0 hstep (by simpa using hn) h2
  rw [List.nil_append] at k1 k2
  obtain ⟨hc, -, htty⟩ := k1
  unfold counts at hc
  simp only [Prod.mk.injEq] at hc
  obtain ⟨c1, c2, c3⟩ := hc
  unfold progressFinal at h3
  rw [if_pos htty] at h3
  obtain ⟨d, g1, h3⟩ := screen_bind_ok h3
  obtain ⟨x, -, h3⟩ := screen_bind_ok h3
  obtain ⟨y, -, h3⟩ := screen_bind_ok h3
  obtain ⟨z, -, h3⟩ := screen_bind_ok h3
  cases h3
  have ed : d = [.display s.nodes s.ways s.relations none] := by
    unfold updateDisplay at g1
    rw [if_neg (by decide)] at g1
    cases g1
    rfl
  refine ⟨b, x ++ y ++ z, ?_, k2⟩
  rw [e1, ed, c1, c2, c3]
  simp

/-! ### What is on the terminal -/

/-- What a display other than the last one writes before the carriage return. -/
def shownText : POut → List Char
  | .display n w r rate => countsLine n.toNat w.toNat r.toNat ++ (rate.map fun p => rateLine p.1 p.2).getD []
  | _ => []

theorem progressText_nil : progressText [] = [] := rfl

theorem progressText_hide (l : List POut) :
    progressText (.hideCursor :: l) = ('\x1b' :: "[?25l".toList) ++ progressText l := rfl

theorem progressText_displays (ds l : List POut) (hd : ∀ x ∈ ds, ∃ (n w r : Nat) (rate : Option (PKind × Int)),
      x = .display n w r rate) (hl : ∀ a, l.head? ≠ some (.average a)) :
    progressText (ds ++ l) = ds.flatMap (fun d => shownText d ++ ['\r']) ++ progressText l := by
  induction ds with
  | nil => rfl
  | cons d ds ih =>
    obtain ⟨n, w, r, rate, rfl⟩ := hd d List.mem_cons_self
    have ih := ih fun x hx => hd x (List.mem_cons_of_mem _ hx)
    have hhead : ∀ a, (ds ++ l).head? ≠ some (.average a) := by
      cases ds with
      | nil => exact hl
      | cons x xs =>
        obtain ⟨n', w', r', rate', rfl⟩ := hd x (by simp)
        intro a h
        cases h
    have e : progressText (.display n w r rate :: (ds ++ l)) = displayText false n w r rate ++ progressText (ds ++ l) := by
      cases hx : ds ++ l with
      | nil => rfl
      | cons x xs =>
        rw [hx] at hhead
        cases x with
        | average a => exact absurd rfl (hhead a)
        | hideCursor => rfl
        | display => rfl
        | showCursor => rfl
    rw [List.cons_append, e, ih, List.flatMap_cons]
    unfold displayText shownText
    rw [countsText_line]
    cases rate with
    | none => simp
    | some p =>
      obtain ⟨k, v⟩ := p
      simp [rateText_line]

theorem noControl_shownText (d : POut) : NoControl (shownText d) := by
  unfold shownText
  split
  · refine (noControl_countsLine _ _ _).append ?_
    rename_i rate
    cases rate with
    | none => intro c hc; cases hc
    | some p => exact noControl_rateLine _ _
  · intro c hc; cases hc

/-- The line after displays, one written over the other. -/
def overlaid (line : List Char) (ds : List POut) : List Char :=
  ds.foldl (fun l d => shownText d ++ l.drop (shownText d).length) line

theorem write_displays (ds : List POut) (s : Screen) (he : s.escape = none) (hc : s.col = 0) :
    s.write (ds.flatMap fun d => shownText d ++ ['\r']) = { s with line := overlaid s.line ds } := by
  induction ds generalizing s with
  | nil => rfl
  | cons d ds ih =>
    rw [List.flatMap_cons, write_append, write_line s _ (noControl_shownText d) he hc,
      ih { s with line := shownText d ++ s.line.drop (shownText d).length, col := 0 } he rfl]
    obtain ⟨a, l, c, k, e⟩ := s
    simp only at hc
    subst hc
    rfl

theorem overlaid_length (line : List Char) (ds : List POut) (N : Nat) (hl : line.length ≤ N)
    (h : ∀ d ∈ ds, (shownText d).length ≤ N) : (overlaid line ds).length ≤ N := by
  induction ds generalizing line with
  | nil => exact hl
  | cons d ds ih =>
    refine ih _ ?_ fun x hx => h x (List.mem_cons_of_mem _ hx)
    have := h d List.mem_cons_self
    rw [List.length_append, List.length_drop]
    omega

theorem overlaid_blank (line : List Char) (ds : List POut) (N : Nat) (hl : ∀ c ∈ line.drop N, c = ' ')
    (h : ∀ d ∈ ds, ∀ c ∈ (shownText d).drop N, c = ' ') : ∀ c ∈ (overlaid line ds).drop N, c = ' ' := by
  induction ds generalizing line with
  | nil => exact hl
  | cons d ds ih =>
    refine ih _ ?_ fun x hx => h x (List.mem_cons_of_mem _ hx)
    intro c hc
    rw [List.drop_append, List.mem_append, List.drop_drop] at hc
    rcases hc with hc | hc
    · exact h d List.mem_cons_self c hc
    · refine hl c ?_
      have e : (shownText d).length + (N - (shownText d).length) = N + ((shownText d).length - N) := by omega
      rw [e, ← List.drop_drop] at hc
      exact List.mem_of_mem_drop hc

theorem overlaid_snoc (line : List Char) (ds : List POut) (d : POut) :
    overlaid line (ds ++ [d]) = shownText d ++ (overlaid line ds).drop (shownText d).length := by
  simp [overlaid]

theorem shownText_blank {N W R : Nat} {x : POut} (h : DisplayUpTo N W R x) :
    ∀ c ∈ (shownText x).drop ((countsLine N W R).length + 35), c = ' ' := by
  obtain ⟨n, w, r, k, v, rfl, h1, h2, h3, hv⟩ := h
  obtain ⟨t, ht, hl⟩ := rateLine_width k hv
  have hc := countsLine_mono h1 h2 h3
  intro c hc'
  simp only [shownText, Option.map_some, Option.getD_some, Int.toNat_natCast, ht] at hc'
  rw [← List.append_assoc, List.drop_append, List.mem_append, List.drop_of_length_le (by rw [List.length_append]; omega)] at hc'
  rcases hc' with hc' | hc'
  · cases hc'
  · exact (List.mem_replicate.1 (List.mem_of_mem_drop hc')).2

theorem write_hide (s : Screen) (he : s.escape = none) : s.write ('\x1b' :: "[?25l".toList) = { s with cursor := false } := by
  obtain ⟨a, l, c, k, e⟩ := s
  simp only at he
  subst he
  rfl

theorem write_show (s : Screen) (he : s.escape = none) : s.write ('\x1b' :: "[?25h".toList) = { s with cursor := true } := by
  obtain ⟨a, l, c, k, e⟩ := s
  simp only at he
  subst he
  rfl

theorem write_newline (s : Screen) (he : s.escape = none) :
    s.write ['\n'] = { s with above := s.above ++ [s.line], line := [], col := 0 } := by
  obtain ⟨a, l, c, k, e⟩ := s
  simp only at he
  subst he
  rfl

/-- **C119** (at the end).  After a run on a terminal there are two new lines: the first one shows the total numbers of
objects and nothing else, whatever has been in that line before, the second one the averages.  The cursor is visible and at
the beginning of the next line.  For every step, clock and sequence of objects, if no rate is undefined. -/
theorem progress_screen_end_partial (step : Int) (t0 t1 : Stamp) (es : List PEvent) (o : List POut)
    (hstep : 0 < step ∧ step < 2147483648) (hn : es.length < 18446744073709551616)
    (h : progressRun step true t0 es t1 = .ok o) :
    ∃ blanks a, POut.average a ∈ o ∧
      screenAfter o = ⟨[countsLine (countKind .node es) (countKind .way es) (countKind .relation es) ++
        List.replicate blanks ' ', averageLine a], [], 0, true, none⟩ := by
  obtain ⟨ds, a, rfl, hd⟩ := progress_shape hstep hn h
  generalize countKind .node es = N at *
  generalize countKind .way es = W at *
  generalize countKind .relation es = R at *
  have hd' : ∀ x ∈ (POut.display 0 0 0 none :: ds), ∃ (n w r : Nat) (rate : Option (PKind × Int)), x = .display n w r rate := by
    intro x hx
    rcases List.mem_cons.1 hx with rfl | hx
    · exact ⟨0, 0, 0, none, rfl⟩
    · obtain ⟨n, w, r, k, v, rfl, -⟩ := hd x hx
      exact ⟨n, w, r, _, rfl⟩
  have htext : progressText (.hideCursor :: .display 0 0 0 none :: ds ++ [.display N W R none, .average a, .showCursor]) =
      ('\x1b' :: "[?25l".toList) ++ (POut.display 0 0 0 none :: ds).flatMap (fun d => shownText d ++ ['\r']) ++
      ((countsLine N W R ++ List.replicate 35 ' ') ++ ['\r']) ++ ['\n'] ++ ("  Average: ".toList ++ a.flatMap averageText) ++
      ('\x1b' :: "[?25h".toList) ++ "per second".toList ++ ['\n'] := by
    have e1 : progressText (.hideCursor :: (.display 0 0 0 none :: ds ++ [.display N W R none, .average a, .showCursor])) =
        ('\x1b' :: "[?25l".toList) ++
          progressText (.display 0 0 0 none :: ds ++ [.display N W R none, .average a, .showCursor]) := rfl
    have e2 : progressText [.display N W R none, .average a, .showCursor] =
        displayText true N W R none ++ ("\n  Average: ".toList ++ a.flatMap averageText ++
          ('\x1b' :: "[?25h".toList ++ "per second\n".toList ++ [])) := rfl
    rw [List.cons_append, e1, progressText_displays _ _ hd' (by intro a h; cases h), e2]
    unfold displayText
    rw [countsText_line]
    simp
  have hline := overlaid_blank [] (POut.display 0 0 0 none :: ds) ((countsLine N W R).length + 35) (by simp) (by
    intro d hx
    rcases List.mem_cons.1 hx with rfl | hx
    · have : (shownText (.display 0 0 0 none)).length = 3 := by decide
      rw [List.drop_of_length_le (by omega)]
      intro c hc
      cases hc
    · exact shownText_blank (hd d hx))
  obtain ⟨m, hm⟩ : ∃ m, (overlaid [] (POut.display 0 0 0 none :: ds)).drop ((countsLine N W R).length + 35) =
      List.replicate m ' ' := ⟨_, List.eq_replicate_of_mem hline⟩
  refine ⟨35 + m, a, by simp, ?_⟩
  have hplain : NoControl ("  Average: ".toList ++ a.flatMap averageText) := by
    have := noControl_averageLine a
    rw [← averageText_line] at this
    intro c hc
    exact this c (List.mem_append_left _ hc)
  have hav := averageText_line a
  generalize "  Average: ".toList ++ a.flatMap averageText = T at *
  obtain ⟨U, hU⟩ : ∃ U, U = (countsLine N W R ++ List.replicate 35 ' ') ++ ['\r'] := ⟨_, rfl⟩
  rw [← hU] at htext
  unfold screenAfter
  rw [htext, write_append, write_append, write_append, write_append, write_append, write_append, write_append,
    write_hide _ rfl, write_displays _ _ rfl rfl, hU,
    write_line _ _ ((noControl_countsLine N W R).append (noControl_blanks 35)) rfl rfl]
  simp only [Screen.new]
  rw [write_newline ⟨[], _, 0, false, none⟩ rfl,
    write_plain _ _ hplain rfl (by simp), write_show _ rfl,
    write_plain _ "per second".toList (by unfold NoControl; decide) rfl (by simp), write_newline _ rfl]
  simp only [Screen.new, List.nil_append, List.drop_nil, List.append_nil, List.take_nil, Screen.mk.injEq, and_true,
    List.length_append, List.length_replicate]
  rw [hm, List.append_assoc _ (List.replicate 35 ' '), List.replicate_append_replicate, ← hav,
    List.take_of_length_le (by omega), List.drop_of_length_le (by omega), List.append_nil]
  rfl

theorem displayWidth_eq (d : POut) : displayWidth d = (shownText d).length := by
  cases d <;> rfl

/-- **C119** (while the file is read).  After each display but the last one the cursor is hidden and the line begins with
the counts and the rate of that display; nothing else is in the line if no display before was wider. -/
theorem progress_screen_now_partial (step : Int) (t0 t1 : Stamp) (es : List PEvent) (pre post : List POut) (n w r : Nat)
    (rate : Option (PKind × Int)) (hstep : 0 < step ∧ step < 2147483648) (hn : es.length < 18446744073709551616)
    (h : progressRun step true t0 es t1 = .ok (pre ++ .display n w r rate :: post))
    (hlast : ∃ n' w' r' rate', POut.display n' w' r' rate' ∈ post) :
    progressText (pre ++ [.display n w r rate]) <+: progressText (pre ++ .display n w r rate :: post) ∧
    ∃ rest, screenAfter (pre ++ [.display n w r rate]) =
        ⟨[], countsLine n w r ++ (rate.map fun p => rateLine p.1 p.2).getD [] ++ rest, 0, false, none⟩ ∧
      ((∀ d ∈ pre, displayWidth d ≤ displayWidth (.display n w r rate)) → rest = []) := by
  obtain ⟨ds, a, ho, hd⟩ := progress_shape hstep hn h
  generalize countKind .node es = N at *
  generalize countKind .way es = W at *
  generalize countKind .relation es = R at *
  have hd' : ∀ x ∈ (POut.display 0 0 0 none :: ds), ∃ (n w r : Nat) (rate : Option (PKind × Int)), x = .display n w r rate := by
    intro x hx
    rcases List.mem_cons.1 hx with rfl | hx
    · exact ⟨0, 0, 0, none, rfl⟩
    · obtain ⟨n, w, r, k, v, rfl, -⟩ := hd x hx
      exact ⟨n, w, r, _, rfl⟩
  generalize hD : POut.display 0 0 0 none :: ds = D at *
  cases pre with
  | nil => cases ho
  | cons p pre =>
    have ho' : p = .hideCursor ∧ pre ++ .display n w r rate :: post = D ++ [.display N W R none, .average a, .showCursor] := by
      rw [List.cons_append, List.cons_append, List.cons.injEq] at ho
      exact ho
    obtain ⟨rfl, ho'⟩ := ho'
    obtain ⟨D', rfl⟩ : ∃ D', D = pre ++ .display n w r rate :: D' := by
      rcases List.append_eq_append_iff.1 ho' with ⟨x, e1, e2⟩ | ⟨x, e1, e2⟩
      · cases x with
        | nil =>
          exfalso
          simp only [List.nil_append, List.cons.injEq] at e2
          obtain ⟨n', w', r', rate', hm⟩ := hlast
          rw [e2.2] at hm
          simp at hm
        | cons y x =>
          rw [List.cons_append, List.cons.injEq] at e2
          exact ⟨x, by rw [e1, e2.1]⟩
      · exfalso
        obtain ⟨n', w', r', rate', hm⟩ := hlast
        cases x with
        | nil =>
          simp only [List.nil_append, List.cons.injEq] at e2
          rw [← e2.2] at hm
          simp at hm
        | cons y x =>
          rw [List.cons_append, List.cons.injEq] at e2
          have := e2.2
          cases x with
          | nil => cases this
          | cons z x =>
            rw [List.cons_append, List.cons.injEq] at this
            have := this.2
            cases x with
            | nil => cases this
            | cons z x =>
              rw [List.cons_append, List.cons.injEq] at this
              have := congrArg List.length this.2
              simp at this
    have hpre : ∀ x ∈ pre ++ [.display n w r rate], ∃ (n w r : Nat) (rate : Option (PKind × Int)), x = .display n w r rate := by
      intro x hx
      refine hd' x ?_
      rcases List.mem_append.1 hx with hx | hx
      · exact List.mem_append_left _ hx
      · rw [List.mem_singleton] at hx
        exact List.mem_append_right _ (hx ▸ List.mem_cons_self)
    have hpost : ∀ a, post.head? ≠ some (.average a) := by
      have : post = D' ++ [.display N W R none, .average a, .showCursor] := by
        rw [List.append_assoc, List.cons_append] at ho'
        have := List.append_cancel_left ho'
        exact (List.cons.inj this).2
      rw [this]
      cases D' with
      | nil => intro a h; cases h
      | cons x xs =>
        obtain ⟨n', w', r', rate', rfl⟩ := hd' x (by simp)
        intro a h
        cases h
    have htext : progressText (.hideCursor :: pre ++ [.display n w r rate]) =
        ('\x1b' :: "[?25l".toList) ++ (pre ++ [POut.display n w r rate]).flatMap (fun d => shownText d ++ ['\r']) := by
      have e := progressText_displays (pre ++ [.display n w r rate]) [] hpre (by intro a h; cases h)
      rw [List.append_nil] at e
      rw [List.cons_append, progressText_hide, e, progressText_nil, List.append_nil]
    refine ⟨?_, (overlaid [] pre).drop (shownText (POut.display n w r rate)).length, ?_, ?_⟩
    · refine ⟨progressText post, ?_⟩
      have e2 : pre ++ .display n w r rate :: post = (pre ++ [.display n w r rate]) ++ post := by simp
      rw [htext, List.cons_append (a := POut.hideCursor), e2, progressText_hide, progressText_displays _ _ hpre hpost,
        List.append_assoc]
    · unfold screenAfter
      rw [htext, write_append, write_hide _ rfl, write_displays _ _ rfl rfl]
      simp only [Screen.new, Screen.mk.injEq, and_true, true_and]
      rw [overlaid_snoc]
      rfl
    · intro hw
      refine List.drop_of_length_le ?_
      refine overlaid_length [] pre _ (Nat.zero_le _) fun d hd => ?_
      rw [← displayWidth_eq, ← displayWidth_eq]
      exact hw d (List.mem_cons_of_mem _ hd)

/-- **C119, disagreement.**  A display that is narrower than one before it leaves the end of the old one in the line: here
the rate falls from a million to one, and the line ends with `nd)`. -/
theorem progress_screen_remains :
    ∃ pre post, progressRun 1 true ⟨100, 0⟩ [⟨.node, ⟨100, 0⟩, ⟨100, 1⟩⟩, ⟨.node, ⟨101, 0⟩, ⟨102, 0⟩⟩, ⟨.way, ⟨103, 0⟩, ⟨104, 0⟩⟩]
        ⟨105, 0⟩ = .ok (pre ++ .display 2 0 0 (some (.node, 1)) :: post) ∧
      (screenAfter (pre ++ [.display 2 0 0 (some (.node, 1))])).line = "[2] (1 Nodes per second)   nd)   ".toList :=
  ⟨[.hideCursor, .display 0 0 0 none, .display 1 0 0 (some (.node, 1000000))], _, rfl, by decide +kernel⟩

/-! ### The program -/

/-- The objects of a file with the times their callbacks read. -/
def progressEvents (clock : Nat → Stamp × Stamp) (i : Nat) : List OsmObj → List PEvent
  | [] => []
  | o :: os => ⟨kindOf o, (clock i).1, (clock i).2⟩ :: progressEvents clock (i + 1) os

theorem countKind_events (clock : Nat → Stamp × Stamp) (i : Nat) (os : List OsmObj) (k : PKind) :
    countKind k (progressEvents clock i os) = kindCount k os := by
  induction os generalizing i with
  | nil => rfl
  | cons o os ih =>
    have := ih (i + 1)
    unfold countKind kindCount at this ⊢
    unfold progressEvents
    by_cases h : kindOf o = k
    · rw [List.filter_cons_of_pos (by simpa using h), List.filter_cons_of_pos (by simpa using h), List.length_cons,
        List.length_cons, this]
    · rw [List.filter_cons_of_neg (by simpa using h), List.filter_cons_of_neg (by simpa using h), this]

theorem progressEvents_length (clock : Nat → Stamp × Stamp) (i : Nat) (os : List OsmObj) :
    (progressEvents clock i os).length = os.length := by
  induction os generalizing i with
  | nil => rfl
  | cons o os ih => rw [progressEvents, List.length_cons, List.length_cons, ih]

/-- The calls between `init` and `final`. -/
def Body (cs : List Cb) : Prop := Cb.final ∉ cs ∧ ∀ m, Cb.init m ∉ cs

theorem progressCalls_body (clock : Nat → Stamp × Stamp) (t0 t1 : Stamp) (s : ProgressSt) (i : Nat) (cs l : List Cb)
    (h : Body cs) :
    progressCalls clock t0 t1 s i (cs ++ l) =
      (progressObjects s (progressEvents clock i (objects cs))).bind fun p =>
        (progressCalls clock t0 t1 p.1 (i + (objects cs).length) l).map fun o => p.2 ++ o := by
  induction cs generalizing s i with
  | nil =>
    show progressCalls clock t0 t1 s i l = (progressCalls clock t0 t1 s i l).map fun o => o
    cases progressCalls clock t0 t1 s i l <;> rfl
  | cons c cs ih =>
    have hb : Body cs := ⟨fun hc => h.1 (List.mem_cons_of_mem _ hc), fun m hc => h.2 m (List.mem_cons_of_mem _ hc)⟩
    have skip : progressCall clock t0 t1 s i c = .ok (s, i, []) → objects (c :: cs) = objects cs →
        progressCalls clock t0 t1 s i (c :: cs ++ l) =
          (progressObjects s (progressEvents clock i (objects (c :: cs)))).bind fun p =>
            (progressCalls clock t0 t1 p.1 (i + (objects (c :: cs)).length) l).map fun o => p.2 ++ o := by
      intro e1 e2
      rw [List.cons_append, progressCalls, e1, e2]
      show (progressCalls clock t0 t1 s i (cs ++ l)).map (fun o => o) = _
      rw [ih s i hb]
      cases progressObjects s (progressEvents clock i (objects cs)) with
      | error e => rfl
      | ok p =>
        show Except.map _ (Except.map _ _) = Except.map _ _
        cases progressCalls clock t0 t1 p.1 (i + (objects cs).length) l <;> rfl
    cases c with
    | init m => exact absurd List.mem_cons_self (h.2 m)
    | final => exact absurd List.mem_cons_self h.1
    | before t => exact skip rfl rfl
    | after t => exact skip rfl rfl
    | obj o =>
      have e2 : objects (.obj o :: cs) = o :: objects cs := rfl
      rw [List.cons_append, progressCalls, e2, progressEvents, progressObjects, progressCall]
      cases hc : progressCount s (kindOf o) (clock i).1 (clock i).2 with
      | error e => rfl
      | ok p =>
        simp only [Except.map, Except.bind, bind]
        rw [ih p.1 (i + 1) hb]
        cases ho : progressObjects p.1 (progressEvents clock (i + 1) (objects cs)) with
        | error e => rfl
        | ok q =>
          simp only [Except.map, Except.bind, pure, Except.pure, List.length_cons]
          have e3 : i + 1 + (objects cs).length = i + ((objects cs).length + 1) := by omega
          rw [e3]
          cases progressCalls clock t0 t1 q.1 (i + ((objects cs).length + 1)) l with
          | error e => rfl
          | ok x => simp

theorem protocol_body (m : Meta) (os : List OsmObj) :
    ∃ cs, protocol m os = .init m :: (cs ++ [.final]) ∧ Body cs ∧ objects cs = os := by
  refine ⟨(runs os).flatMap runCalls, rfl, ?_, ?_⟩
  · have key : ∀ c ∈ (runs os).flatMap runCalls, c ≠ .final ∧ ∀ m', c ≠ .init m' := by
      intro c hc
      obtain ⟨r, -, hr⟩ := List.mem_flatMap.1 hc
      cases r with
      | nil => cases hr
      | cons a r =>
        simp only [runCalls, List.cons_append, List.mem_cons, List.mem_append, List.mem_map, List.not_mem_nil,
          or_false] at hr
        rcases hr with rfl | ⟨o, -, rfl⟩ | rfl <;> exact ⟨by simp, by simp⟩
    exact ⟨fun h => (key _ h).1 rfl, fun m' h => (key _ h).2 m' rfl⟩
  · have h2 := objects_protocol m os
    have h3 : objects (protocol m os) = objects ((runs os).flatMap runCalls ++ [.final]) := rfl
    rw [h3] at h2
    unfold objects at h2 ⊢
    rw [List.filterMap_append] at h2
    simpa using h2

theorem progressCalls_protocol (clock : Nat → Stamp × Stamp) (t0 t1 : Stamp) (step : Int) (tty : Bool) (m : Meta)
    (os : List OsmObj) :
    progressCalls clock t0 t1 (ProgressSt.new step tty) 0 (protocol m os) =
      progressRun step tty t0 (progressEvents clock 0 os) t1 := by
  obtain ⟨cs, e1, hb, e2⟩ := protocol_body m os
  rw [e1, progressCalls, progressCall, progressRun]
  cases hi : progressInit (ProgressSt.new step tty) t0 with
  | error e => rfl
  | ok a =>
    simp only [Except.map, Except.bind, bind]
    rw [progressCalls_body _ _ _ _ _ _ _ hb, e2]
    cases ho : progressObjects (ProgressSt.new step tty) (progressEvents clock 0 os) with
    | error e => rfl
    | ok p =>
      simp only [Except.map, Except.bind, progressCalls, progressCall]
      cases progressFinal p.1 t1 with
      | error e => rfl
      | ok c => simp [pure, Except.pure]

/-- **C119** (the program).  `osmium_progress FILE` for a file that can be read ends with status 0.  On a terminal it leaves
two lines: the numbers of nodes, ways and relations in the file, and the averages; the cursor is visible again.  If standard
output is not a terminal nothing is printed.  With a wrong number of arguments the status is 1.  On a terminal: if no rate
is undefined. -/
theorem osmium_progress_file_partial (clock : Nat → Stamp × Stamp) (t0 t1 : Stamp) (args : List String)
    (r : String → List Cb × ParseEnd) (m : Meta) (os : List OsmObj) (hn : os.length < 18446744073709551616) :
    (∀ file, args = [file] → r file = (protocol m os, .returned) →
      osmiumProgress clock t0 t1 false args r = .ok (some 0, []) ∧
      ∀ status text, osmiumProgress clock t0 t1 true args r = .ok (status, text) →
        status = some 0 ∧ ∃ blanks a, Screen.new.write text =
          ⟨[countsLine (kindCount .node os) (kindCount .way os) (kindCount .relation os) ++ List.replicate blanks ' ', averageLine a],
            [], 0, true, none⟩) ∧
    (∀ tty, args.length ≠ 1 → osmiumProgress clock t0 t1 tty args r = .ok (some 1, [])) := by
  constructor
  · rintro file rfl hr
    constructor
    · simp only [osmiumProgress, hr, progressCalls_protocol, progress_quiet]
      rfl
    · intro status text h
      simp only [osmiumProgress, hr, progressCalls_protocol] at h
      cases ho : progressRun 1000 true t0 (progressEvents clock 0 os) t1 with
      | error e => rw [ho] at h; cases h
      | ok o =>
        rw [ho] at h
        cases h
        obtain ⟨blanks, a, -, h⟩ := progress_screen_end_partial 1000 t0 t1 _ o (by decide)
          (by rw [progressEvents_length]; exact hn) ho
        simp only [countKind_events] at h
        exact ⟨rfl, blanks, a, h⟩
  · intro tty h
    match args with
    | [] => rfl
    | [a] => exact absurd rfl h
    | a :: b :: l => rfl

/-- What is missing: if the reader throws an exception the program ends without a status, and the cursor remains hidden. -/
theorem osmium_progress_abort (clock : Nat → Stamp × Stamp) (t0 t1 : Stamp) (file : String) (r : String → List Cb × ParseEnd)
    (m : Meta) (cs : List Cb) (e : Fail) (hcs : Body cs) (hn : (objects cs).length < 18446744073709551616)
    (hr : r file = (.init m :: cs, .threw e)) (status : Option Int) (text : List Char)
    (h : osmiumProgress clock t0 t1 true [file] r = .ok (status, text)) :
    status = none ∧ (Screen.new.write text).cursor = false := by
  simp only [osmiumProgress, hr] at h
  have hi : progressInit (ProgressSt.new 1000 true) t0 = .ok [.hideCursor, .display 0 0 0 none] := rfl
  have hb := progressCalls_body clock t0 t1 (ProgressSt.new 1000 true) 0 cs [] hcs
  rw [List.append_nil] at hb
  rw [progressCalls, progressCall, hi] at h
  simp only [Except.map, Except.bind] at h
  rw [hb] at h
  cases ho : progressObjects (ProgressSt.new 1000 true) (progressEvents clock 0 (objects cs)) with
  | error e => rw [ho] at h; cases h
  | ok p =>
    rw [ho] at h
    simp only [Except.map, Except.bind, progressCalls, List.append_nil] at h
    cases h
    refine ⟨rfl, ?_⟩
    have hd := progressObjects_displays (step := 1000) (seen := []) (s := ProgressSt.new 1000 true) ⟨rfl, rfl, rfl⟩ (by decide)
      (by rw [List.nil_append, progressEvents_length]; exact hn) ho
    have ht := progressText_displays (.display 0 0 0 none :: p.2) [] (by
      intro x hx
      rcases List.mem_cons.1 hx with rfl | hx
      · exact ⟨0, 0, 0, none, rfl⟩
      · obtain ⟨n, w, r, k, v, rfl, -⟩ := hd x hx
        exact ⟨n, w, r, _, rfl⟩) (by intro a h; cases h)
    rw [List.append_nil] at ht
    have e1 : progressText ([.hideCursor, .display 0 0 0 none] ++ p.2) =
      ('\x1b' :: "[?25l".toList) ++ progressText (.display 0 0 0 none :: p.2) := rfl
    rw [e1, ht, write_append, write_append, write_hide _ rfl, write_displays _ _ rfl rfl]
    rfl

/-- A concrete case: three nodes, a way and a relation. -/
example : ∃ o, progressRun 2 true ⟨100, 0⟩
      [⟨.node, ⟨100, 1⟩, ⟨0, 0⟩⟩, ⟨.node, ⟨100, 3⟩, ⟨100, 5⟩⟩, ⟨.way, ⟨101, 0⟩, ⟨0, 0⟩⟩,
       ⟨.node, ⟨101, 3⟩, ⟨101, 5⟩⟩, ⟨.relation, ⟨102, 0⟩, ⟨102, 0⟩⟩] ⟨103, 0⟩ = .ok o ∧
    screenAfter o = ⟨["[3] [1] [1]                                   ".toList,
      "  Average: 3 Nodes 1 Ways 1 Relations per second".toList], [], 0, true, none⟩ :=
  ⟨_, rfl, by decide +kernel⟩

/-- A concrete case for the program, and one that ends early. -/
example :
    let os : List OsmObj := [.node ⟨{ Obj.new with id := 1 }, ⟨0, 0⟩⟩, .node ⟨{ Obj.new with id := 2 }, ⟨0, 0⟩⟩,
      .way ⟨{ Obj.new with id := 1 }, []⟩]
    let clock : Nat → Stamp × Stamp := fun i => (⟨100 + i, 0⟩, ⟨100 + i, 500000⟩)
    (osmiumProgress clock ⟨99, 0⟩ ⟨110, 0⟩ true ["f.osm"] fun _ => (protocol (Meta.new false) os, .returned)).toOption.map
      (fun p => (p.1, Screen.new.write p.2)) =
        some (some 0, ⟨["[2] [1]                                   ".toList, "  Average: 1 Nodes 0 Ways per second".toList], [], 0,
          true, none⟩) ∧
    (osmiumProgress clock ⟨99, 0⟩ ⟨110, 0⟩ true ["f.osm"] fun _ =>
        ((protocol (Meta.new false) os).take 3, .threw (.exn "x"))).toOption.map
      (fun p => (p.1, Screen.new.write p.2)) = some (none, ⟨[], "[0]".toList, 0, false, none⟩) := by
  decide +kernel

end Osmium
