import Verif.Examples.DebugMain
import Verif.Osm.PrintedProps

/-
C99: the bounding box in the dump of osmium_debug.  The program writes it first (examples/osmium_debug.cpp 24-42 makes the
handler for standard output, handler/debug.hpp 54-56), so the stream still has its default precision of six digits.
-/
namespace Osmium
open Spec Text

namespace Spec

/-- Not more than a thousandth of a degree between two coordinates. (specification, no counterpart in /repo) -/
def NearCoord (x y : Int) : Prop := |x - y| ≤ 10000

/-- The same for boxes. (specification, no counterpart in /repo) -/
def NearBounds (a b : Bounds) : Prop :=
  NearCoord a.bottomLeft.x b.bottomLeft.x ∧ NearCoord a.bottomLeft.y b.bottomLeft.y ∧
  NearCoord a.topRight.x b.topRight.x ∧ NearCoord a.topRight.y b.topRight.y

end Spec

theorem boundsText_line (d : Nat) (b : Bounds) : '\n' ∉ boundsText d b := by
  have hf : ∀ q, '\n' ∉ fmtG d q := fun q hm => by
    have := fmtG_chars d q _ hm
    revert this
    decide
  unfold boundsText
  simp only [List.cons_append, List.append_assoc, List.mem_cons, List.mem_append, List.not_mem_nil, or_false, hf,
    false_or]
  decide

theorem near_of_text {x y : Int} {v : ℚ}
    (h1 : |v - (x : ℚ) / 10000000| ≤ (10 : ℚ) ^ (2 - ((5 : Nat) : Int)) / 2 + 1 / 1000000000)
    (h2 : |v - (y : ℚ) / 10000000| ≤ (10 : ℚ) ^ (2 - ((5 : Nat) : Int)) / 2 + 1 / 1000000000) : NearCoord x y := by
  have e : (10 : ℚ) ^ (2 - ((5 : Nat) : Int)) = 1 / 1000 := by norm_num
  rw [e, abs_le] at h1 h2
  unfold NearCoord
  have h3 : ((x - y : Int) : ℚ) < 10001 := by push_cast; linarith [h1.1, h1.2, h2.1, h2.2]
  have h4 : (-10001 : ℚ) < ((x - y : Int) : ℚ) := by push_cast; linarith [h1.1, h1.2, h2.1, h2.2]
  have h3 : x - y < 10001 := by exact_mod_cast h3
  have h4 : -10001 < x - y := by exact_mod_cast h4
  rw [abs_le]
  omega

theorem near_of_boundsText {a b : Bounds} (ha : a.bottomLeft.WF ∧ a.topRight.WF) (hb : b.bottomLeft.WF ∧ b.topRight.WF)
    (h : boundsText 5 a = boundsText 5 b) : NearBounds a b := by
  obtain ⟨v1, v2, v3, v4, e1, p1, p2, p3, p4⟩ := bounds_printed_near 5 a ha.1 ha.2
  obtain ⟨w1, w2, w3, w4, e2, q1, q2, q3, q4⟩ := bounds_printed_near 5 b hb.1 hb.2
  rw [h, e2] at e1
  simp only [Option.some.injEq, List.cons.injEq, and_true] at e1
  obtain ⟨rfl, rfl, rfl, rfl⟩ := e1
  exact ⟨near_of_text p1 q1, near_of_text p2 q2, near_of_text p3 q3, near_of_text p4 q4⟩

/-- The lines after the meta data do not begin with a space. -/
theorem debugLines_head (bt : Bounds → Line) (f : Bool) (cs : List Cb) (l : Line) (ls : List Line)
    (h : debugLines bt f cs = (' ' :: l) :: ls) : False := by
  cases cs with
  | nil => simp [debugLines] at h
  | cons c cs =>
    rw [debugLines] at h
    have h := congrArg (fun ls : List Line => ls.head?.bind (fun l => l.head?)) h
    revert h
    rcases c with m | t | o | t | _
    · exact fun h => absurd h (by show some 'm' ≠ some ' '; decide)
    · exact fun h => absurd h (by show some 'b' ≠ some ' '; decide)
    · cases o with
      | node n => exact fun h => absurd h (by show some 'n' ≠ some ' '; decide)
      | way n => exact fun h => absurd h (by show some 'w' ≠ some ' '; decide)
      | relation n => exact fun h => absurd h (by show some 'r' ≠ some ' '; decide)
    · exact fun h => absurd h (by show some 'a' ≠ some ' '; decide)
    · exact fun h => absurd h (by show some 'f' ≠ some ' '; decide)

theorem dump_bounds (bt : Bounds → Line) (hbt : ∀ b, '\n' ∉ bt b) (f : Bool) (m m' : Meta) (cs cs' : List Cb)
    (hc : ∀ c ∈ Cb.init m :: cs, DumpCb c) (hc' : ∀ c ∈ Cb.init m' :: cs', DumpCb c)
    (h : debugText bt f (.init m :: cs) = debugText bt f (.init m' :: cs')) :
    m.bounds.defined = m'.bounds.defined ∧ (m.bounds.defined = true → bt m.bounds = bt m'.bounds) := by
  have h := lines_injective (debugLines_line hbt f _ hc) (debugLines_line hbt f _ hc') h
  simp only [debugLines, debugStep, List.cons_append, List.nil_append, List.cons.injEq, true_and] at h
  obtain ⟨-, e2⟩ := h
  have sp : ∀ x, txt "  bounds=" ++ x = ' ' :: (txt " bounds=" ++ x) := fun x => rfl
  cases hb : m.bounds.defined <;> cases hb' : m'.bounds.defined <;>
    simp only [hb, hb', if_true, Bool.false_eq_true, if_false, List.nil_append, List.cons_append] at e2
  · simp
  · rw [sp] at e2
    exact (debugLines_head _ _ _ _ _ e2).elim
  · rw [sp] at e2
    exact (debugLines_head _ _ _ _ _ e2.symm).elim
  · exact ⟨rfl, fun _ => List.append_cancel_left (List.cons.inj e2).1⟩

/-- **C99**, the bounding box: if the dumps of two files are the same, both have a bounding box or neither has, and the
boxes are almost the same: their corners differ by at most a thousandth of a degree in each coordinate.
(Partial as `debug_program_partial`; and only almost, see `debug_bounds_ambiguous`.) -/
theorem debug_bounds_partial (endtime : Bool) (c : PbfCodec)
    (ft ft' : FileType) (f g : FileData) (ch ch' : Nat → Nat) (m m' : Meta) (os os' : List OsmObj)
    (hf : f.read c ft ch = (protocol m os, .returned)) (hg : g.read c ft' ch' = (protocol m' os', .returned))
    (hm : OneLine m.generator) (hm' : OneLine m'.generator) (ho : ∀ o ∈ os, DumpObj o) (ho' : ∀ o ∈ os', DumpObj o)
    (hb : m.bounds.bottomLeft.WF ∧ m.bounds.topRight.WF) (hb' : m'.bounds.bottomLeft.WF ∧ m'.bounds.topRight.WF)
    (h : osmiumDebug (boundsText 5) endtime (f.read c ft ch) = osmiumDebug (boundsText 5) endtime (g.read c ft' ch')) :
    m.bounds.defined = m'.bounds.defined ∧ (m.bounds.defined = true → NearBounds m.bounds m'.bounds) := by
  rw [hf, hg] at h
  unfold osmiumDebug at h
  have key : m.bounds.defined = m'.bounds.defined ∧
      (m.bounds.defined = true → boundsText 5 m.bounds = boundsText 5 m'.bounds) := by
    cases endtime with
    | false =>
      simp only [Bool.false_eq_true, if_false] at h
      exact dump_bounds (boundsText 5) (boundsText_line 5) false m m' _ _ (dump_protocol m os hm ho)
        (dump_protocol m' os' hm' ho') h
    | true =>
      simp only [if_true, endTime_protocol] at h
      exact dump_bounds (boundsText 5) (boundsText_line 5) true m m' _ _ (dump_protocol m _ hm (endTimes_dump os ho))
        (dump_protocol m' _ hm' (endTimes_dump os' ho')) h
  exact ⟨key.1, fun hd => near_of_boundsText hb hb' (key.2 hd)⟩

/-- **C99 fails** for the bounding box: two files with different boxes, of any objects, have the same dump. -/
theorem debug_bounds_ambiguous (endtime : Bool) (os : List OsmObj) :
    let a : Meta := ⟨⟨⟨133777777, 525162222⟩, ⟨133787777, 525172222⟩⟩, "", false⟩
    let b : Meta := ⟨⟨⟨133778222, 525161777⟩, ⟨133787777, 525172222⟩⟩, "", false⟩
    a.bounds ≠ b.bounds ∧ a.bounds.defined = true ∧ b.bounds.defined = true ∧
    osmiumDebug (boundsText 5) endtime (protocol a os, .returned) =
      osmiumDebug (boundsText 5) endtime (protocol b os, .returned) := by
  intro a b
  have ht : boundsText 5 a.bounds = boundsText 5 b.bounds := by decide +kernel
  have hd : a.bounds.defined = true ∧ b.bounds.defined = true := by decide
  refine ⟨by decide, hd.1, hd.2, ?_⟩
  have step : ∀ f, debugStep (boundsText 5) f (.init a) = debugStep (boundsText 5) f (.init b) := by
    intro f
    simp only [debugStep, hd.1, hd.2, if_true, ht]
    rfl
  have key : ∀ f cs, debugText (boundsText 5) f (.init a :: cs) = debugText (boundsText 5) f (.init b :: cs) := by
    intro f cs
    unfold debugText
    rw [debugLines, debugLines, step f]
  unfold osmiumDebug
  cases endtime with
  | false => exact key false _
  | true =>
    simp only [if_true, endTime_protocol]
    exact key true _

/-- The box of the demonstration file of C68 meets the hypotheses, and is shown like this. -/
example : demoMeta.bounds.bottomLeft.WF ∧ demoMeta.bounds.topRight.WF ∧ demoMeta.bounds.defined = true := by
  simp only [Position.WF]
  decide

example : debugLines (boundsText 5) false [.init ⟨⟨⟨133777777, 525162222⟩, ⟨133787777, 525172222⟩⟩, "me", false⟩] =
    ["meta:".toList, "  generator=me".toList, "  bounds=(13.3778,52.5162,13.3788,52.5172)".toList] := by decide +kernel

end Osmium
