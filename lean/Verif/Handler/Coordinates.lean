import Verif.Input.Model
import Verif.Storage.Props
import Verif.Storage.MmapProps

/-
C32: the handler CoordinatesForWays, handler/coordinates_for_ways.hpp.
-/
namespace Osmium

/-- `-id` on `int64_t`: undefined behaviour for the smallest value; then converted to
`uint64_t`. (handler/coordinates_for_ways.hpp 57, 62 and 72) -/
def negId (id : Int) : Res Nat := (Res.ofOption (chk64 (-id))).map Int.toNat

/-- handler/coordinates_for_ways.hpp 52-59 `node`. -/
def cfwNode {S T : Type} (pos : IdStore S Position) (neg : IdStore T Position)
    (s : S × T) (n : Node) : Res (S × T) :=
  if n.obj.id ≥ 0 then do
    let p ← pos.set s.1 n.obj.id.toNat n.position
    return (p, s.2)
  else do
    let i ← negId n.obj.id
    let q ← neg.set s.2 i n.position
    return (s.1, q)

/-- handler/coordinates_for_ways.hpp 61-63 `get_node_pos`, and 71-72. -/
def cfwPos {S T : Type} (pos : IdStore S Position) (neg : IdStore T Position)
    (s : S × T) (id : Int) : Res Position :=
  if id ≥ 0 then pos.get s.1 id.toNat
  else do
    let i ← negId id
    neg.get s.2 i

/-- handler/coordinates_for_ways.hpp 69-74 `way`: sets the position of each node of the way. -/
def cfwWay {S T : Type} (pos : IdStore S Position) (neg : IdStore T Position)
    (s : S × T) (w : Way) : Res Way := do
  let ns ← w.nodes.mapM fun wn => do
    let p ← cfwPos pos neg s wn.ref
    return { wn with position := p }
  return { w with nodes := ns }

/-- One callback: the new state and the argument afterwards. (handler/coordinates_for_ways.hpp
52-80) -/
def cfwStep {S T : Type} (pos : IdStore S Position) (neg : IdStore T Position)
    (s : S × T) : Cb → Res ((S × T) × Cb)
  | .obj (.node n) => do
    let s' ← cfwNode pos neg s n
    return (s', .obj (.node n))
  | .obj (.way w) => do
    let w' ← cfwWay pos neg s w
    return (s, .obj (.way w'))
  | c => .ok (s, c)

/-- A sequence of callbacks, and their arguments afterwards. (handler/coordinates_for_ways.hpp
52-80, for all callbacks) -/
def cfwRun {S T : Type} (pos : IdStore S Position) (neg : IdStore T Position) :
    S × T → List Cb → Res (List Cb)
  | _, [] => .ok []
  | s, c :: cs => do
    let r ← cfwStep pos neg s c
    let out ← cfwRun pos neg r.1 cs
    return r.2 :: out

namespace Spec

/-- Among the callbacks the last node with this id has this position. (specification, no counterpart in /repo) -/
def LastNode (calls : List Cb) (id : Int) (p : Position) : Prop :=
  ∃ before n after, calls = before ++ .obj (.node n) :: after ∧ n.obj.id = id ∧ n.position = p ∧
    ∀ m, Cb.obj (.node m) ∈ after → m.obj.id ≠ id

/-- There was no node with this id. (specification, no counterpart in /repo) -/
def NoNode (calls : List Cb) (id : Int) : Prop := ∀ n, Cb.obj (.node n) ∈ calls → n.obj.id ≠ id

/-- `w'` is the way `w`, its nodes having the positions of the nodes in `calls`; `unset` is the
position for nodes that were not there. (specification, no counterpart in /repo) -/
def Located (calls : List Cb) (unset : Position) (w w' : Way) : Prop :=
  w'.obj = w.obj ∧
  List.Forall₂ (fun a b : WayNode => b.ref = a.ref ∧
    (∀ p, LastNode calls a.ref p → b.position = p) ∧
    (NoNode calls a.ref → b.position = unset)) w.nodes w'.nodes

/-- What a callback may do to its argument: only ways are changed. (specification, no counterpart in /repo) -/
def CfwEffect (before : List Cb) (unset : Position) (c c' : Cb) : Prop :=
  match c with
  | .obj (.way w) => ∃ w', c' = .obj (.way w') ∧ Located before unset w w'
  | c => c' = c

end Spec

open Spec

/-- The `set` calls on the storage for ids that are not negative. (specified from the callbacks,
see handler/coordinates_for_ways.hpp 52-66) -/
def posOps (calls : List Cb) : List (Nat × Position) :=
  calls.filterMap fun
    | .obj (.node n) => if n.obj.id ≥ 0 then some (n.obj.id.toNat, n.position) else none
    | _ => none

/-- The `set` calls on the storage for negative ids. (specified from the callbacks, see
handler/coordinates_for_ways.hpp 52-66) -/
def negOps (calls : List Cb) : List (Nat × Position) :=
  calls.filterMap fun
    | .obj (.node n) => if n.obj.id ≥ 0 then none else some ((-n.obj.id).toNat, n.position)
    | _ => none

/-- Ids for which `-id` is defined. (handler/coordinates_for_ways.hpp 57 and 75: `-id`) -/
def NegatableId (id : Int) : Prop := -9223372036854775808 < id ∧ id ≤ 9223372036854775807

/-- All ids in the callbacks can be negated. (handler/coordinates_for_ways.hpp 57 and 75) -/
def NegatableIds (calls : List Cb) : Prop :=
  ∀ c ∈ calls, match c with
    | .obj (.node n) => NegatableId n.obj.id
    | .obj (.way w) => ∀ wn ∈ w.nodes, NegatableId wn.ref
    | _ => True

theorem negId_of {id : Int} (h : NegatableId id) : negId id = .ok (-id).toNat := by
  have : chk64 (-id) = some (-id) := chk64_eq_some.2 ⟨by unfold NegatableId at h; unfold InS64; omega, rfl⟩
  simp [negId, this, Except.map]

theorem posOps_append (a b : List Cb) : posOps (a ++ b) = posOps a ++ posOps b := by
  simp [posOps]
theorem negOps_append (a b : List Cb) : negOps (a ++ b) = negOps a ++ negOps b := by
  simp [negOps]

theorem mem_posOps {calls : List Cb} {o : Nat × Position} :
    o ∈ posOps calls ↔ ∃ n, Cb.obj (.node n) ∈ calls ∧ 0 ≤ n.obj.id ∧
      o = (n.obj.id.toNat, n.position) := by
  simp only [posOps, List.mem_filterMap]
  constructor
  · rintro ⟨c, hc, h⟩
    split at h
    · rename_i n
      split at h
      · rename_i hn
        exact ⟨n, hc, hn, by simpa using h.symm⟩
      · simp at h
    · simp at h
  · rintro ⟨n, hn, h0, rfl⟩
    exact ⟨_, hn, by simp [h0]⟩

theorem mem_negOps {calls : List Cb} {o : Nat × Position} :
    o ∈ negOps calls ↔ ∃ n, Cb.obj (.node n) ∈ calls ∧ n.obj.id < 0 ∧
      o = ((-n.obj.id).toNat, n.position) := by
  simp only [negOps, List.mem_filterMap]
  constructor
  · rintro ⟨c, hc, h⟩
    split at h
    · rename_i n
      split at h
      · simp at h
      · rename_i hn
        exact ⟨n, hc, by omega, by simpa using h.symm⟩
    · simp at h
  · rintro ⟨n, hn, h0, rfl⟩
    refine ⟨_, hn, ?_⟩
    simp only
    rw [if_neg (by omega)]

theorem lastSet_pos {calls : List Cb} {id : Int} {p : Position} (h0 : 0 ≤ id)
    (h : LastNode calls id p) : LastSet (posOps calls) id.toNat p := by
  obtain ⟨pre, n, post, rfl, rfl, rfl, hlast⟩ := h
  refine ⟨posOps pre, posOps post, ?_, ?_⟩
  · rw [posOps_append, show (Cb.obj (.node n) :: post) = [Cb.obj (.node n)] ++ post from rfl,
      posOps_append]
    simp [posOps, h0]
  · intro o ho
    obtain ⟨m, hm, hm0, rfl⟩ := mem_posOps.1 ho
    have := hlast m hm
    simp only; omega

theorem lastSet_neg {calls : List Cb} {id : Int} {p : Position} (h0 : id < 0)
    (h : LastNode calls id p) : LastSet (negOps calls) (-id).toNat p := by
  obtain ⟨pre, n, post, rfl, rfl, rfl, hlast⟩ := h
  refine ⟨negOps pre, negOps post, ?_, ?_⟩
  · rw [negOps_append, show (Cb.obj (.node n) :: post) = [Cb.obj (.node n)] ++ post from rfl,
      negOps_append]
    have : ¬ (0 ≤ n.obj.id) := by omega
    simp [negOps, this]
  · intro o ho
    obtain ⟨m, hm, hm0, rfl⟩ := mem_negOps.1 ho
    have := hlast m hm
    simp only; omega

theorem neverSet_pos {calls : List Cb} {id : Int} (h0 : 0 ≤ id)
    (h : NoNode calls id) : NeverSet (posOps calls) id.toNat := by
  intro o ho
  obtain ⟨m, hm, hm0, rfl⟩ := mem_posOps.1 ho
  have := h m hm
  simp only; omega

theorem neverSet_neg {calls : List Cb} {id : Int} (h0 : id < 0)
    (h : NoNode calls id) : NeverSet (negOps calls) (-id).toNat := by
  intro o ho
  obtain ⟨m, hm, hm0, rfl⟩ := mem_negOps.1 ho
  have := h m hm
  simp only; omega

theorem lastNode_or_none (calls : List Cb) (id : Int) :
    (∃ p, LastNode calls id p) ∨ NoNode calls id := by
  induction calls with
  | nil => exact .inr (by simp [NoNode])
  | cons c cs ih =>
    rcases ih with ⟨p, pre, n, post, rfl, h1, h2, h3⟩ | hno
    · exact .inl ⟨p, c :: pre, n, post, rfl, h1, h2, h3⟩
    · by_cases hc : ∃ n, c = .obj (.node n) ∧ n.obj.id = id
      · obtain ⟨n, rfl, hid⟩ := hc
        exact .inl ⟨n.position, [], n, cs, rfl, hid, rfl, hno⟩
      · refine .inr fun n hn hid => ?_
        rcases List.mem_cons.1 hn with h | h
        · exact hc ⟨n, h.symm, hid⟩
        · exact hno n h hid

/-- The state of both storages after the callbacks `calls`. (helper for statements and proofs, no
counterpart in /repo) -/
def FilledBy {S T : Type} (pos : IdStore S Position) (neg : IdStore T Position)
    (calls : List Cb) (s : S × T) : Prop :=
  pos.fill (posOps calls) = .ok s.1 ∧ neg.fill (negOps calls) = .ok s.2

theorem filled_node {S T : Type} {pos : IdStore S Position} {neg : IdStore T Position}
    {calls : List Cb} {s : S × T} {n : Node} (h : FilledBy pos neg calls s)
    (hn : NegatableId n.obj.id)
    (hp : ∃ x, pos.fill (posOps (calls ++ [.obj (.node n)])) = .ok x)
    (hq : ∃ x, neg.fill (negOps (calls ++ [.obj (.node n)])) = .ok x) :
    ∃ s', cfwNode pos neg s n = .ok s' ∧ FilledBy pos neg (calls ++ [.obj (.node n)]) s' := by
  obtain ⟨s1, s2⟩ := s
  obtain ⟨h1, h2⟩ := h
  obtain ⟨x, hp⟩ := hp
  obtain ⟨y, hq⟩ := hq
  simp only at h1 h2
  by_cases h0 : 0 ≤ n.obj.id
  · have e1 : posOps (calls ++ [.obj (.node n)]) = posOps calls ++ [(n.obj.id.toNat, n.position)] := by
      rw [posOps_append]; simp [posOps, h0]
    have e2 : negOps (calls ++ [.obj (.node n)]) = negOps calls := by
      rw [negOps_append]; simp [negOps, h0]
    rw [e1, IdStore.fill_concat, h1] at hp
    simp only [bind, Except.bind] at hp
    refine ⟨(x, s2), ?_, ?_⟩
    · simp only [cfwNode, ge_iff_le, h0, if_true, hp]; rfl
    · refine ⟨?_, ?_⟩
      · rw [e1, IdStore.fill_concat, h1]; exact hp
      · rw [e2]; exact h2
  · have e1 : posOps (calls ++ [.obj (.node n)]) = posOps calls := by
      rw [posOps_append]; simp [posOps, h0]
    have e2 : negOps (calls ++ [.obj (.node n)]) =
        negOps calls ++ [((-n.obj.id).toNat, n.position)] := by
      rw [negOps_append]; simp [negOps, h0]
    rw [e2, IdStore.fill_concat, h2] at hq
    simp only [bind, Except.bind] at hq
    refine ⟨(s1, y), ?_, ?_⟩
    · simp only [cfwNode, ge_iff_le, h0, if_false, negId_of hn, bind, Except.bind, hq]; rfl
    · refine ⟨?_, ?_⟩
      · rw [e1]; exact h1
      · rw [e2, IdStore.fill_concat, h2]; exact hq

/-- The position found for a node. -/
theorem filled_pos {S T : Type} {pos : IdStore S Position} {neg : IdStore T Position}
    {okp okn : List (Nat × Position) → Prop} {up un : Nat → Res Position}
    (fp : Faithful pos okp up) (fn : Faithful neg okn un)
    {calls : List Cb} {s : S × T} (h : FilledBy pos neg calls s)
    (hokp : okp (posOps calls)) (hokn : okn (negOps calls))
    {id : Int} (hid : NegatableId id) :
    (∀ p, LastNode calls id p → cfwPos pos neg s id = .ok p) ∧
    (NoNode calls id → cfwPos pos neg s id = if 0 ≤ id then up id.toNat else un (-id).toNat) := by
  obtain ⟨s1, s2⟩ := s
  obtain ⟨h1, h2⟩ := h
  simp only at h1 h2
  obtain ⟨x, hx, fp1, fp2⟩ := fp _ hokp
  obtain ⟨y, hy, fn1, fn2⟩ := fn _ hokn
  rw [h1] at hx; injection hx with hx; subst hx
  rw [h2] at hy; injection hy with hy; subst hy
  unfold NegatableId at hid
  by_cases h0 : 0 ≤ id
  · simp only [cfwPos, ge_iff_le, h0, if_true]
    exact ⟨fun p hp => fp1 _ _ (lastSet_pos h0 hp),
      fun hn => fp2 _ (by omega) (neverSet_pos h0 hn)⟩
  · simp only [cfwPos, ge_iff_le, h0, if_false, negId_of hid, bind, Except.bind]
    exact ⟨fun p hp => fn1 _ _ (lastSet_neg (by omega) hp),
      fun hn => fn2 _ (by omega) (neverSet_neg (by omega) hn)⟩

theorem cfwWay_located {S T : Type} {pos : IdStore S Position} {neg : IdStore T Position}
    {okp okn : List (Nat × Position) → Prop} {up un : Nat → Res Position} {unset : Position}
    (fp : Faithful pos okp up) (fn : Faithful neg okn un)
    {calls : List Cb} {s : S × T} (h : FilledBy pos neg calls s)
    (hokp : okp (posOps calls)) (hokn : okn (negOps calls))
    (w : Way) (hw : ∀ wn ∈ w.nodes, NegatableId wn.ref)
    (hu : ∀ wn ∈ w.nodes, NoNode calls wn.ref →
      (if 0 ≤ wn.ref then up wn.ref.toNat else un (-wn.ref).toNat) = .ok unset) :
    ∃ w', cfwWay pos neg s w = .ok w' ∧ Located calls unset w w' := by
  obtain ⟨o, nodes⟩ := w
  simp only at hw hu
  have key : ∃ ns, nodes.mapM (fun wn => do
        let p ← cfwPos pos neg s wn.ref
        return ({ wn with position := p } : WayNode)) = Except.ok (ε := Fail) ns ∧
      List.Forall₂ (fun a b : WayNode => b.ref = a.ref ∧
        (∀ p, LastNode calls a.ref p → b.position = p) ∧
        (NoNode calls a.ref → b.position = unset)) nodes ns := by
    clear o
    induction nodes with
    | nil => exact ⟨[], rfl, .nil⟩
    | cons a nodes ih =>
      obtain ⟨ns, e, hf⟩ := ih (fun wn hwn => hw wn (by simp [hwn]))
        (fun wn hwn => hu wn (by simp [hwn]))
      obtain ⟨k1, k2⟩ := filled_pos fp fn h hokp hokn (hw a (by simp))
      have : ∃ p, cfwPos pos neg s a.ref = .ok p ∧ (∀ q, LastNode calls a.ref q → p = q) ∧
          (NoNode calls a.ref → p = unset) := by
        rcases lastNode_or_none calls a.ref with ⟨p, hp⟩ | hno
        · have e1 := k1 p hp
          refine ⟨p, e1, fun q hq => ?_, fun hno => ?_⟩
          · have e2 := k1 q hq
            rw [e1] at e2; injection e2
          · obtain ⟨pre, n, post, rfl, hid, -, -⟩ := hp
            exact absurd hid (hno n (by simp))
        · have e1 := k2 hno
          rw [hu a (by simp) hno] at e1
          refine ⟨unset, e1, fun q hq => ?_, fun _ => rfl⟩
          obtain ⟨pre, n, post, rfl, hid, -, -⟩ := hq
          exact absurd hid (hno n (by simp))
      obtain ⟨p, e1, e2, e3⟩ := this
      refine ⟨{ a with position := p } :: ns, ?_, .cons ⟨rfl, e2, e3⟩ hf⟩
      rw [List.mapM_cons, e1]
      simp only [bind, Except.bind, pure, Except.pure] at e ⊢
      rw [e]
  obtain ⟨ns, e, hf⟩ := key
  refine ⟨⟨o, ns⟩, ?_, rfl, hf⟩
  simp only [cfwWay]
  rw [e]
  rfl

/-- **C32.**  Over any two storages that return the value last set, for all sequences of
callbacks: nothing fails, all callbacks except those for ways leave their argument unchanged, and
each way ends up with, for each of its nodes, the position of the last node with that id among the
callbacks before it (or the storage's value `unset`, if there was none).  `okp` and `okn` are the
histories the storages support. -/
theorem coordinates_for_ways {S T : Type} {pos : IdStore S Position} {neg : IdStore T Position}
    {okp okn : List (Nat × Position) → Prop} {up un : Nat → Res Position} {unset : Position}
    (fp : Faithful pos okp up) (fn : Faithful neg okn un)
    (calls : List Cb) (hids : NegatableIds calls)
    (hokp : ∀ k, okp (posOps (calls.take k))) (hokn : ∀ k, okn (negOps (calls.take k)))
    (hu : ∀ k w, calls[k]? = some (.obj (.way w)) → ∀ wn ∈ w.nodes,
      NoNode (calls.take k) wn.ref →
      (if 0 ≤ wn.ref then up wn.ref.toNat else un (-wn.ref).toNat) = .ok unset) :
    ∃ out, cfwRun pos neg (pos.empty, neg.empty) calls = .ok out ∧
      out.length = calls.length ∧
      ∀ (k : Nat) (c : Cb), calls[k]? = some c →
        ∃ c', out[k]? = some c' ∧ CfwEffect (calls.take k) unset c c' := by
  have key : ∀ (rest done : List Cb) (s : S × T), done ++ rest = calls →
      FilledBy pos neg done s →
      ∃ out, cfwRun pos neg s rest = .ok out ∧ out.length = rest.length ∧
        ∀ (k : Nat) (c : Cb), rest[k]? = some c →
          ∃ c', out[k]? = some c' ∧ CfwEffect (done ++ rest.take k) unset c c' := by
    intro rest
    induction rest with
    | nil => intro done s _ _; exact ⟨[], rfl, rfl, by simp⟩
    | cons c rest ih =>
      intro done s hsplit hfill
      have htake : ∀ k, calls.take (done.length + k) = done ++ (c :: rest).take k := by
        intro k; rw [← hsplit, List.take_append]; simp
      have hd : calls.take done.length = done := by simpa using htake 0
      have hd1 : calls.take (done.length + 1) = done ++ [c] := by simpa using htake 1
      have hc : c ∈ calls := by rw [← hsplit]; simp
      have hget : calls[done.length]? = some c := by rw [← hsplit]; simp
      have hokp0 := hokp done.length; rw [hd] at hokp0
      have hokn0 := hokn done.length; rw [hd] at hokn0
      have hokp1 := hokp (done.length + 1); rw [hd1] at hokp1
      have hokn1 := hokn (done.length + 1); rw [hd1] at hokn1
      -- one step
      have step : ∃ s' c', cfwStep pos neg s c = .ok (s', c') ∧ FilledBy pos neg (done ++ [c]) s' ∧
          CfwEffect done unset c c' := by
        have same : posOps (done ++ [c]) = posOps done → negOps (done ++ [c]) = negOps done →
            FilledBy pos neg (done ++ [c]) s := by
          intro e1 e2; unfold FilledBy; rw [e1, e2]; exact hfill
        match c, hc, hget, hokp1, hokn1, same with
        | .obj (.node n), hc, hget, hokp1, hokn1, same =>
          obtain ⟨x, hx, -⟩ := fp _ hokp1
          obtain ⟨y, hy, -⟩ := fn _ hokn1
          obtain ⟨s', e, hf⟩ := filled_node hfill (hids _ hc) ⟨x, hx⟩ ⟨y, hy⟩
          exact ⟨s', _, by simp only [cfwStep, e]; rfl, hf, rfl⟩
        | .obj (.way w), hc, hget, hokp1, hokn1, same =>
          have hu' := hu _ _ hget
          rw [hd] at hu'
          obtain ⟨w', e, hl⟩ := cfwWay_located fp fn hfill hokp0 hokn0 w (hids _ hc) hu'
          exact ⟨s, _, by simp only [cfwStep, e]; rfl,
            same (by rw [posOps_append]; simp [posOps]) (by rw [negOps_append]; simp [negOps]),
            w', rfl, hl⟩
        | .obj (.relation r), hc, hget, hokp1, hokn1, same =>
          exact ⟨s, _, rfl, same (by rw [posOps_append]; simp [posOps])
            (by rw [negOps_append]; simp [negOps]), rfl⟩
        | .init m, hc, hget, hokp1, hokn1, same =>
          exact ⟨s, _, rfl, same (by rw [posOps_append]; simp [posOps])
            (by rw [negOps_append]; simp [negOps]), rfl⟩
        | .before t, hc, hget, hokp1, hokn1, same =>
          exact ⟨s, _, rfl, same (by rw [posOps_append]; simp [posOps])
            (by rw [negOps_append]; simp [negOps]), rfl⟩
        | .after t, hc, hget, hokp1, hokn1, same =>
          exact ⟨s, _, rfl, same (by rw [posOps_append]; simp [posOps])
            (by rw [negOps_append]; simp [negOps]), rfl⟩
        | .final, hc, hget, hokp1, hokn1, same =>
          exact ⟨s, _, rfl, same (by rw [posOps_append]; simp [posOps])
            (by rw [negOps_append]; simp [negOps]), rfl⟩
      obtain ⟨s', c', e, hf', hm⟩ := step
      obtain ⟨out, eo, hlen, hrest⟩ := ih (done ++ [c]) s' (by simpa using hsplit) hf'
      refine ⟨c' :: out, ?_, by simp [hlen], ?_⟩
      · simp only [cfwRun, e, bind, Except.bind, eo]; rfl
      · intro k d hk
        cases k with
        | zero =>
          simp only [List.getElem?_cons_zero, Option.some.injEq] at hk
          subst hk
          exact ⟨c', rfl, by simpa using hm⟩
        | succ k =>
          simp only [List.getElem?_cons_succ] at hk ⊢
          obtain ⟨d', h1, h2⟩ := hrest k d hk
          refine ⟨d', h1, ?_⟩
          simpa using h2
  obtain ⟨out, e, hlen, h⟩ := key calls [] (pos.empty, neg.empty) rfl ⟨rfl, rfl⟩
  exact ⟨out, e, hlen, by simpa using h⟩

/-- **C32** with the map storage: if a way has a node that was not there before, the handler
throws. -/
theorem coordinates_missing_throws (calls : List Cb) (s) (w : Way)
    (hfill : FilledBy (stlMap Position) (stlMap Position) calls s)
    (hw : ∀ wn ∈ w.nodes, NegatableId wn.ref)
    (hmiss : ∃ wn ∈ w.nodes, NoNode calls wn.ref) :
    cfwWay (stlMap Position) (stlMap Position) s w = .error (.exn "std::out_of_range") := by
  obtain ⟨o, nodes⟩ := w
  simp only at hw hmiss
  have key : nodes.mapM (fun wn => do
        let p ← cfwPos (stlMap Position) (stlMap Position) s wn.ref
        return ({ wn with position := p } : WayNode)) =
      Except.error (Fail.exn "std::out_of_range") := by
    clear o
    induction nodes with
    | nil => obtain ⟨wn, h, -⟩ := hmiss; simp at h
    | cons a nodes ih =>
      obtain ⟨k1, k2⟩ := filled_pos (stlMap_faithful Position) (stlMap_faithful Position) hfill
        trivial trivial (hw a (by simp))
      rw [List.mapM_cons]
      rcases lastNode_or_none calls a.ref with ⟨p, hp⟩ | hno
      · rw [k1 p hp]
        have hmiss' : ∃ wn ∈ nodes, NoNode calls wn.ref := by
          obtain ⟨wn, h, hn⟩ := hmiss
          rcases List.mem_cons.1 h with rfl | h
          · obtain ⟨pre, n, post, rfl, hid, -, -⟩ := hp
            exact absurd hid (hn n (by simp))
          · exact ⟨wn, h, hn⟩
        have := ih (fun wn hwn => hw wn (by simp [hwn])) hmiss'
        simp only [bind, Except.bind, pure, Except.pure] at this ⊢
        rw [this]
      · rw [k2 hno]
        simp [bind, Except.bind]
  simp only [cfwWay]
  rw [key]
  rfl

/-- Data for the examples, no counterpart in /repo. -/
private def nodeAt (id x : Int) : Cb := .obj (.node ⟨{ Obj.new with id := id }, ⟨x, x⟩⟩)

/-- Data for the examples, no counterpart in /repo. -/
private def cfwDemo : List Cb :=
  [nodeAt 5 1, nodeAt (-5) 2, nodeAt 5 3,
   .obj (.way ⟨Obj.new, [⟨5, .undef⟩, ⟨-5, .undef⟩, ⟨7, .undef⟩]⟩), nodeAt 7 4]

example : cfwRun (sparseTable Position .undef 10) (sparseTable Position .undef 10)
    ((sparseTable Position .undef 10).empty, (sparseTable Position .undef 10).empty) cfwDemo =
    .ok [nodeAt 5 1, nodeAt (-5) 2, nodeAt 5 3,
      .obj (.way ⟨Obj.new, [⟨5, ⟨3, 3⟩⟩, ⟨-5, ⟨2, 2⟩⟩, ⟨7, .undef⟩]⟩), nodeAt 7 4] ∧
    (NegatableIds cfwDemo ∧ ∀ k, RoomToGrow 10 (posOps (cfwDemo.take k))) := by
  refine ⟨by decide +kernel, ?_, ?_⟩
  · simp [NegatableIds, cfwDemo, nodeAt, NegatableId]
  · intro k o ho
    obtain ⟨n, hn, h0, rfl⟩ := mem_posOps.1 ho
    have hn := List.mem_of_mem_take hn
    simp only [cfwDemo, nodeAt, List.mem_cons, Cb.obj.injEq, OsmObj.node.injEq, reduceCtorEq,
      List.not_mem_nil, or_false, false_or] at hn
    rcases hn with rfl | rfl | rfl | rfl <;> simp at * 

/-- **C32**, the limit: for the smallest id the negation is undefined. -/
theorem coordinates_min_id :
    cfwRun (stlMap Position) (stlMap Position) ([], []) [nodeAt (-9223372036854775808) 1] =
      .error .ub := by
  decide +kernel

end Osmium
