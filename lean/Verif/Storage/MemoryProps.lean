import Verif.Storage.Memory

/-
C101: storages use and give back their own memory only, and give it back.
-/
namespace Osmium

namespace Spec

/-- Everything the storages accessed or gave back was a block they had obtained themselves and that was there, and no
block was given back twice. -/
structure OnlyOwnMemory (w : MemWorld) : Prop where
  used : ∀ e ∈ w.used, ∃ s, e.2 = some s ∧ (s, e.1) ∈ w.made
  freed : ∀ e ∈ w.freed, ∃ s, e.2 = some s ∧ (s, e.1) ∈ w.made
  once : (w.freed.map Prod.snd).Nodup

/-- Storages that are gone have given back everything. -/
def NoMemoryLost (w : MemWorld) : Prop :=
  ∀ s i, (s, i) ∈ w.made → w.objs i = none → (i, some s) ∈ w.freed

/-- Has the storage been cleared?  (Only a `FixedArray` notices.) -/
def Cleared (o : MemObj) : Prop := o.items = .null

/-- How a program may use storages: it does not use one after `clear`, as the documentation says; it does not call
`clear` for `MmapAnon` and `MmapFile` at all; and there is always enough memory for them to grow (a file need not
always be). -/
def Tidy (w : MemWorld) : MemOp → Prop
  | .clear i => ∀ o, w.objs i = some o → o.kind = .fixed
  | .set i id answer => ∀ o, w.objs i = some o → ¬ Cleared o ∧ (o.kind ≠ .fixed → id ≥ o.size → answer ≠ .noMemory)
  | .get i _ => ∀ o, w.objs i = some o → ¬ Cleared o
  | _ => True

end Spec

open Spec

/-- The storage `i` has the block `s`, at `a`. -/
def MemHas (w : MemWorld) (i a s : Nat) : Prop :=
  ∃ o, w.objs i = some o ∧ o.items = .addr a ∧ w.blocks a = some s

/-- The invariant. -/
structure MemInv (w : MemWorld) : Prop where
  own : ∀ i o, w.objs i = some o → (o.kind = .fixed ∧ o.items = .null) ∨
    ∃ a s, o.items = .addr a ∧ w.blocks a = some s ∧ (s, i) ∈ w.made
  inj : ∀ a b s, w.blocks a = some s → w.blocks b = some s → a = b
  small : ∀ a s, w.blocks a = some s → s < w.serial
  fresh : ∀ a s i, w.blocks a = some s → (i, some s) ∉ w.freed
  only : OnlyOwnMemory w
  lt : ∀ e ∈ w.made, e.1 < w.serial
  uniq : (w.made.map Prod.fst).Nodup
  kept : ∀ s i, (s, i) ∈ w.made → (i, some s) ∈ w.freed ∨ ∃ a, MemHas w i a s

theorem MemInv.owner {w : MemWorld} (h : MemInv w) {s i j : Nat} (h1 : (s, i) ∈ w.made) (h2 : (s, j) ∈ w.made) : i = j := by
  have := List.inj_on_of_nodup_map h.uniq h1 h2 rfl
  simpa using this

theorem MemInv.init : MemInv MemWorld.init := by
  constructor <;> simp [MemWorld.init]
  constructor <;> simp

/-- An access. -/
theorem MemInv.access {w : MemWorld} (h : MemInv w) {i : Nat} {o : MemObj} (ho : w.objs i = some o)
    (hc : o.items ≠ .null) : MemInv (w.access i o.items) := by
  obtain ⟨h1, h2⟩ | ⟨a, s, h1, h2, h3⟩ := h.own i o ho
  · exact absurd h2 hc
  · refine ⟨h.own, h.inj, h.small, h.fresh, ⟨?_, h.only.freed, h.only.once⟩, h.lt, h.uniq, h.kept⟩
    intro e he
    simp only [MemWorld.access, List.mem_append, List.mem_singleton] at he
    rcases he with he | rfl
    · exact h.only.used e he
    · exact ⟨s, by simp [MemWorld.behind, h1, h2], h3⟩

/-- Giving a block back, after which the storage is gone or its pointer is NULL. -/
theorem MemInv.unmap {w : MemWorld} (h : MemInv w) {i : Nat} {o : MemObj} (ho : w.objs i = some o) {a s : Nat}
    (ha : o.items = .addr a) (hs : w.blocks a = some s) (hm : (s, i) ∈ w.made) (o' : Option MemObj)
    (ho' : ∀ x, o' = some x → x.kind = .fixed ∧ x.items = .null) : MemInv ((w.unmap i o.items).1.put i o') := by
  have hne : ∀ k x b t, w.objs k = some x → k ≠ i → x.items = .addr b → w.blocks b = some t → (t, k) ∈ w.made → b ≠ a := by
    rintro k x b t hk hki hb ht hmt rfl
    rw [hs] at ht; cases ht
    exact hki (h.owner hmt hm)
  simp only [ha, MemWorld.unmap, MemWorld.put]
  refine ⟨?_, ?_, ?_, ?_, ⟨h.only.used, ?_, ?_⟩, h.lt, h.uniq, ?_⟩
  · intro k x hk
    by_cases hki : k = i
    · subst hki
      simp only [Function.update_self] at hk
      exact .inl (ho' x hk)
    · simp only [Function.update_of_ne hki] at hk
      rcases h.own k x hk with h1 | ⟨b, t, h1, h2, h3⟩
      · exact .inl h1
      · refine .inr ⟨b, t, h1, ?_, h3⟩
        simp only [Function.update_of_ne (hne k x b t hk hki h1 h2 h3), h2]
  · intro b c t hb hc
    by_cases e1 : b = a
    · subst e1; simp at hb
    · by_cases e2 : c = a
      · subst e2; simp at hc
      · simp only [Function.update_of_ne e1] at hb
        simp only [Function.update_of_ne e2] at hc
        exact h.inj b c t hb hc
  · intro b t hb
    by_cases e1 : b = a
    · subst e1; simp at hb
    · simp only [Function.update_of_ne e1] at hb
      exact h.small b t hb
  · intro b t k hb hf
    by_cases e1 : b = a
    · subst e1; simp at hb
    · simp only [Function.update_of_ne e1] at hb
      simp only [hs, List.mem_append, List.mem_singleton, Prod.mk.injEq, Option.some.injEq] at hf
      rcases hf with hf | ⟨-, rfl⟩
      · exact h.fresh b t k hb hf
      · exact e1 (h.inj b a t hb hs)
  · intro e he
    simp only [hs, List.mem_append, List.mem_singleton] at he
    rcases he with he | rfl
    · exact h.only.freed e he
    · exact ⟨s, rfl, hm⟩
  · simp only [hs, List.map_append, List.map_cons, List.map_nil]
    rw [List.nodup_append]
    refine ⟨h.only.once, by simp, ?_⟩
    intro x hx y hy
    simp only [List.mem_singleton] at hy
    subst hy
    rintro rfl
    obtain ⟨⟨k, y⟩, hk, rfl⟩ := List.mem_map.1 hx
    exact h.fresh a s k hs hk
  · intro t k hm'
    rcases h.kept t k hm' with hf | ⟨b, x, hk, hb, ht⟩
    · exact .inl (List.mem_append_left _ hf)
    · by_cases hki : k = i
      · subst hki
        rw [ho] at hk; cases hk
        rw [ha] at hb; cases hb
        rw [hs] at ht; cases ht
        exact .inl (by simp [hs])
      · refine .inr ⟨b, x, by simp only [Function.update_of_ne hki, hk], hb, ?_⟩
        simp only [Function.update_of_ne (hne k x b t hk hki hb ht hm'), ht]

/-- A new block for a storage that has none. -/
theorem MemInv.map {w : MemWorld} (h : MemInv w) {i a : Nat} (hi : ∀ o, w.objs i = some o → o.kind = .fixed ∧ o.items = .null)
    (ha : w.blocks a = none) (o : MemObj) (ho : o.items = .addr a) : MemInv ((w.map i a).put i (some o)) := by
  have hblk : ∀ b, b ≠ a → Function.update w.blocks a (some w.serial) b = w.blocks b := fun b hb => Function.update_of_ne hb _ _
  have hne : ∀ b t, w.blocks b = some t → b ≠ a := by
    rintro b t hb rfl
    rw [ha] at hb; cases hb
  simp only [MemWorld.map, MemWorld.put]
  refine ⟨?_, ?_, ?_, ?_, ⟨?_, ?_, h.only.once⟩, ?_, ?_, ?_⟩
  · intro k x hk
    by_cases hki : k = i
    · subst hki
      simp only [Function.update_self, Option.some.injEq] at hk
      subst hk
      exact .inr ⟨a, w.serial, ho, by simp, by simp⟩
    · simp only [Function.update_of_ne hki] at hk
      rcases h.own k x hk with h1 | ⟨b, t, h1, h2, h3⟩
      · exact .inl h1
      · exact .inr ⟨b, t, h1, by simp only [hblk b (hne b t h2), h2], by simp [h3]⟩
  · intro b c t hb hc
    by_cases e1 : b = a
    · by_cases e2 : c = a
      · rw [e1, e2]
      · subst e1
        simp only [hblk c e2] at hc
        simp only [Function.update_self, Option.some.injEq] at hb
        have := h.small c t hc
        omega
    · by_cases e2 : c = a
      · subst e2
        simp only [hblk b e1] at hb
        simp only [Function.update_self, Option.some.injEq] at hc
        have := h.small b t hb
        omega
      · simp only [hblk b e1] at hb
        simp only [hblk c e2] at hc
        exact h.inj b c t hb hc
  · intro b t hb
    by_cases e1 : b = a
    · subst e1
      simp only [Function.update_self, Option.some.injEq] at hb
      subst hb
      exact Nat.lt_succ_self _
    · simp only [hblk b e1] at hb
      have := h.small b t hb
      exact Nat.lt_succ_of_lt this
  · intro b t k hb hf
    by_cases e1 : b = a
    · subst e1
      simp only [Function.update_self, Option.some.injEq] at hb
      subst hb
      obtain ⟨s, e, hm⟩ := h.only.freed _ hf
      cases e
      exact Nat.lt_irrefl _ (h.lt _ hm)
    · simp only [hblk b e1] at hb
      exact h.fresh b t k hb hf
  · intro e he
    obtain ⟨s, h1, h2⟩ := h.only.used e he
    exact ⟨s, h1, by simp [h2]⟩
  · intro e he
    obtain ⟨s, h1, h2⟩ := h.only.freed e he
    exact ⟨s, h1, by simp [h2]⟩
  · intro e he
    simp only [List.mem_append, List.mem_singleton] at he
    rcases he with he | rfl
    · exact Nat.lt_succ_of_lt (h.lt e he)
    · exact Nat.lt_succ_self _
  · simp only [List.map_append, List.map_cons, List.map_nil]
    rw [List.nodup_append]
    refine ⟨h.uniq, by simp, ?_⟩
    intro x hx y hy
    simp only [List.mem_singleton] at hy
    subst hy
    rintro rfl
    obtain ⟨e, he, h1⟩ := List.mem_map.1 hx
    have := h.lt e he
    omega
  · intro t k hm
    simp only [List.mem_append, List.mem_singleton, Prod.mk.injEq] at hm
    rcases hm with hm | ⟨rfl, rfl⟩
    · rcases h.kept t k hm with hf | ⟨b, x, hk, hb, ht⟩
      · exact .inl hf
      · by_cases hki : k = i
        · subst hki
          rw [(hi x hk).2] at hb; cases hb
        · exact .inr ⟨b, x, by simp only [Function.update_of_ne hki, hk], hb, by simp only [hblk b (hne b t ht), ht]⟩
    · exact .inr ⟨a, o, by simp, ho, by simp⟩

/-- `mremap` moves a block. -/
theorem MemInv.move {w : MemWorld} (h : MemInv w) {i : Nat} {o : MemObj} (ho : w.objs i = some o) {a b s : Nat}
    (ha : o.items = .addr a) (hs : w.blocks a = some s) (hm : (s, i) ∈ w.made) (hb : a = b ∨ w.blocks b = none)
    (o' : MemObj) (ho' : o'.items = .addr b) :
    MemInv (({ w with blocks := Function.update (Function.update w.blocks a none) b (w.blocks a) } : MemWorld).put i (some o')) := by
  rcases hb with rfl | hb
  · have hbl : Function.update (Function.update w.blocks a none) a (w.blocks a) = w.blocks := by
      funext x
      by_cases hx : x = a
      · subst hx; simp
      · simp [Function.update_of_ne hx]
    rw [hbl]
    simp only [MemWorld.put]
    refine ⟨?_, h.inj, h.small, h.fresh, ⟨h.only.used, h.only.freed, h.only.once⟩, h.lt, h.uniq, ?_⟩
    · intro k x hk
      by_cases hki : k = i
      · subst hki
        simp only [Function.update_self, Option.some.injEq] at hk
        subst hk
        exact .inr ⟨a, s, ho', hs, hm⟩
      · simp only [Function.update_of_ne hki] at hk
        exact h.own k x hk
    · intro t k hmt
      rcases h.kept t k hmt with hf | ⟨c, x, hk, hc, ht⟩
      · exact .inl hf
      · by_cases hki : k = i
        · subst hki
          rw [ho] at hk; cases hk
          rw [ha] at hc; cases hc
          exact .inr ⟨a, o', by simp, ho', ht⟩
        · exact .inr ⟨c, x, by simp only [Function.update_of_ne hki, hk], hc, ht⟩
  · have hab : a ≠ b := by rintro rfl; rw [hs] at hb; cases hb
    -- where the blocks are now
    have hbl : ∀ c t, Function.update (Function.update w.blocks a none) b (w.blocks a) c = some t ↔
        (c = b ∧ t = s) ∨ (c ≠ a ∧ w.blocks c = some t) := by
      intro c t
      by_cases e1 : c = b
      · subst e1
        simp only [Function.update_self, hs, Option.some.injEq, hb, reduceCtorEq, and_false, or_false, true_and]
        exact eq_comm
      · rw [Function.update_of_ne e1]
        by_cases e2 : c = a
        · subst e2
          simp [e1]
        · rw [Function.update_of_ne e2]
          simp [e1, e2]
    have hne : ∀ k x c t, w.objs k = some x → k ≠ i → x.items = .addr c → w.blocks c = some t → (t, k) ∈ w.made → c ≠ a := by
      rintro k x c t hk hki hc ht hmt rfl
      rw [hs] at ht; cases ht
      exact hki (h.owner hmt hm)
    simp only [MemWorld.put]
    refine ⟨?_, ?_, ?_, ?_, ⟨h.only.used, h.only.freed, h.only.once⟩, h.lt, h.uniq, ?_⟩
    · intro k x hk
      by_cases hki : k = i
      · subst hki
        simp only [Function.update_self, Option.some.injEq] at hk
        subst hk
        exact .inr ⟨b, s, ho', (hbl b s).2 (.inl ⟨rfl, rfl⟩), hm⟩
      · simp only [Function.update_of_ne hki] at hk
        rcases h.own k x hk with h1 | ⟨c, t, h1, h2, h3⟩
        · exact .inl h1
        · exact .inr ⟨c, t, h1, (hbl c t).2 (.inr ⟨hne k x c t hk hki h1 h2 h3, h2⟩), h3⟩
    · intro c d t hc hd
      rcases (hbl c t).1 hc with ⟨rfl, rfl⟩ | ⟨h1, h2⟩ <;> rcases (hbl d _).1 hd with ⟨rfl, h4⟩ | ⟨h3, h4⟩
      · rfl
      · exact absurd (h.inj d a _ h4 hs) h3
      · subst h4; exact absurd (h.inj c a _ h2 hs) h1
      · exact h.inj c d t h2 h4
    · intro c t hc
      rcases (hbl c t).1 hc with ⟨rfl, rfl⟩ | ⟨h1, h2⟩
      · exact h.small a _ hs
      · exact h.small c t h2
    · intro c t k hc hf
      rcases (hbl c t).1 hc with ⟨rfl, rfl⟩ | ⟨h1, h2⟩
      · exact h.fresh a _ k hs hf
      · exact h.fresh c t k h2 hf
    · intro t k hmt
      rcases h.kept t k hmt with hf | ⟨c, x, hk, hc, ht⟩
      · exact .inl hf
      · by_cases hki : k = i
        · subst hki
          rw [ho] at hk; cases hk
          rw [ha] at hc; cases hc
          rw [hs] at ht; cases ht
          exact .inr ⟨b, o', by simp, ho', (hbl b s).2 (.inl ⟨rfl, rfl⟩)⟩
        · exact .inr ⟨c, x, by simp only [Function.update_of_ne hki, hk], hc,
            (hbl c t).2 (.inr ⟨hne k x c t hk hki hc ht hmt, ht⟩)⟩

theorem MemInv.files {w : MemWorld} (h : MemInv w) (l : List Nat) : MemInv { w with files := l } :=
  ⟨h.own, h.inj, h.small, h.fresh, ⟨h.only.used, h.only.freed, h.only.once⟩, h.lt, h.uniq, h.kept⟩

/-- The block another part of the program gets. -/
theorem MemInv.otherMap {w : MemWorld} (h : MemInv w) {a : Nat} (ha : w.blocks a = none) :
    MemInv { w with blocks := Function.update w.blocks a (some w.serial), serial := w.serial + 1 } := by
  have hblk : ∀ b t, Function.update w.blocks a (some w.serial) b = some t ↔
      (b = a ∧ t = w.serial) ∨ w.blocks b = some t := by
    intro b t
    by_cases e : b = a
    · subst e
      simp only [Function.update_self, Option.some.injEq, ha, reduceCtorEq, or_false, true_and]
      exact eq_comm
    · simp [Function.update_of_ne e, e]
  refine ⟨?_, ?_, ?_, ?_, ⟨h.only.used, h.only.freed, h.only.once⟩, fun e he => Nat.lt_succ_of_lt (h.lt e he), h.uniq, ?_⟩
  · intro k x hk
    rcases h.own k x hk with h1 | ⟨b, t, h1, h2, h3⟩
    · exact .inl h1
    · exact .inr ⟨b, t, h1, (hblk b t).2 (.inr h2), h3⟩
  · intro c d t hc hd
    rcases (hblk c t).1 hc with ⟨rfl, rfl⟩ | h2 <;> rcases (hblk d _).1 hd with ⟨rfl, h4⟩ | h4
    · rfl
    · exact absurd (h.small _ _ h4) (Nat.lt_irrefl _)
    · subst h4; exact absurd (h.small _ _ h2) (Nat.lt_irrefl _)
    · exact h.inj c d t h2 h4
  · intro c t hc
    rcases (hblk c t).1 hc with ⟨rfl, rfl⟩ | h2
    · exact Nat.lt_succ_self _
    · exact Nat.lt_succ_of_lt (h.small c t h2)
  · intro c t k hc hf
    rcases (hblk c t).1 hc with ⟨rfl, rfl⟩ | h2
    · obtain ⟨s, e, hm⟩ := h.only.freed _ hf
      cases e
      exact Nat.lt_irrefl _ (h.lt _ hm)
    · exact h.fresh c t k h2 hf
  · intro t k hm
    rcases h.kept t k hm with hf | ⟨b, x, hk, hb, ht⟩
    · exact .inl hf
    · exact .inr ⟨b, x, hk, hb, (hblk b t).2 (.inr ht)⟩

/-- The block another part of the program gives back. -/
theorem MemInv.otherUnmap {w : MemWorld} (h : MemInv w) {a s : Nat} (ha : w.blocks a = some s)
    (hs : s ∉ w.made.map Prod.fst) : MemInv { w with blocks := Function.update w.blocks a none } := by
  have hblk : ∀ b t, Function.update w.blocks a none b = some t ↔ b ≠ a ∧ w.blocks b = some t := by
    intro b t
    by_cases e : b = a
    · subst e; simp
    · simp [Function.update_of_ne e, e]
  have hne : ∀ b t i, w.blocks b = some t → (t, i) ∈ w.made → b ≠ a := by
    rintro b t i hb hm rfl
    rw [ha] at hb; cases hb
    exact hs (List.mem_map.2 ⟨_, hm, rfl⟩)
  refine ⟨?_, ?_, ?_, ?_, ⟨h.only.used, h.only.freed, h.only.once⟩, h.lt, h.uniq, ?_⟩
  · intro k x hk
    rcases h.own k x hk with h1 | ⟨b, t, h1, h2, h3⟩
    · exact .inl h1
    · exact .inr ⟨b, t, h1, (hblk b t).2 ⟨hne b t k h2 h3, h2⟩, h3⟩
  · intro c d t hc hd
    exact h.inj c d t ((hblk c t).1 hc).2 ((hblk d t).1 hd).2
  · intro c t hc
    exact h.small c t ((hblk c t).1 hc).2
  · intro c t k hc hf
    exact h.fresh c t k ((hblk c t).1 hc).2 hf
  · intro t k hm
    rcases h.kept t k hm with hf | ⟨b, x, hk, hb, ht⟩
    · exact .inl hf
    · exact .inr ⟨b, x, hk, hb, (hblk b t).2 ⟨hne b t k ht hm, ht⟩⟩

theorem put_put (w : MemWorld) (i : Nat) (o o' : Option MemObj) : (w.put i o).put i o' = w.put i o' := by
  simp [MemWorld.put]

theorem MemInv.clear {w : MemWorld} (h : MemInv w) {i : Nat} {o : MemObj} (ho : w.objs i = some o) :
    MemInv ((w.clearObj i o).put i none) ∧ (o.kind = .fixed → MemInv (w.clearObj i o)) := by
  rcases h.own i o ho with ⟨hf, hn⟩ | ⟨a, s, ha, hs, hm⟩
  · have e : w.clearObj i o = w := by simp [MemWorld.clearObj, hf, hn]
    rw [e]
    refine ⟨?_, fun _ => h⟩
    refine ⟨?_, h.inj, h.small, h.fresh, ⟨h.only.used, h.only.freed, h.only.once⟩, h.lt, h.uniq, ?_⟩
    · intro k x hk
      by_cases hki : k = i
      · subst hki; simp [MemWorld.put] at hk
      · simp only [MemWorld.put, Function.update_of_ne hki] at hk
        exact h.own k x hk
    · intro t k hm
      rcases h.kept t k hm with hf | ⟨b, x, hk, hb, ht⟩
      · exact .inl hf
      · by_cases hki : k = i
        · subst hki
          rw [ho] at hk; cases hk
          rw [hn] at hb; cases hb
        · exact .inr ⟨b, x, by simp only [MemWorld.put, Function.update_of_ne hki, hk], hb, ht⟩
  · constructor
    · have e : (w.clearObj i o).put i none = (w.unmap i o.items).1.put i none := by
        unfold MemWorld.clearObj
        split
        · rw [if_neg (by rw [ha]; simp), put_put]
        · rfl
      rw [e]
      exact h.unmap ho ha hs hm none (by simp)
    · intro hf
      unfold MemWorld.clearObj
      rw [hf]
      simp only
      rw [if_neg (by rw [ha]; simp)]
      exact h.unmap ho ha hs hm _ (by rintro x ⟨⟩; exact ⟨rfl, rfl⟩)

theorem MemInv.step {w w' : MemWorld} {op : MemOp} {thrown : Bool} (h : MemInv w) (hp : Tidy w op)
    (hs : w.step op = some (w', thrown)) : MemInv w' := by
  cases op with
  | create i kind max answer =>
    simp only [MemWorld.step] at hs
    split at hs
    · rename_i hi
      have hi' : w.objs i = none := by simpa using hi
      have h1 : MemInv (if kind = .file then { w with files := w.files ++ [i] } else w) := by
        split
        · exact h.files _
        · exact h
      have hw1 : (if kind = .file then { w with files := w.files ++ [i] } else w).objs = w.objs ∧
          (if kind = .file then { w with files := w.files ++ [i] } else w).blocks = w.blocks := by
        split <;> exact ⟨rfl, rfl⟩
      generalize (if kind = .file then { w with files := w.files ++ [i] } else w) = w1 at hs h1 hw1
      cases answer with
      | none =>
        simp only [Option.some.injEq, Prod.mk.injEq] at hs
        rw [← hs.1]; exact h1
      | some a =>
        simp only at hs
        split at hs
        · rename_i ha
          simp only [Option.some.injEq, Prod.mk.injEq] at hs
          rw [← hs.1]
          refine h1.map ?_ (by rw [hw1.2]; simpa using ha) _ rfl
          rw [hw1.1, hi']; simp
        · cases hs
    · cases hs
  | set i id answer =>
    simp only [MemWorld.step] at hs
    split at hs
    · cases hs
    · rename_i o ho
      obtain ⟨hc, hg⟩ := hp o ho
      split at hs
      · rename_i hgrow
        obtain ⟨h1, h2⟩ | ⟨a, s, ha, hsa, hm⟩ := h.own i o ho
        · exact absurd h1 hgrow.1
        have hnm := hg hgrow.1 hgrow.2
        cases answer with
        | noMemory => exact absurd rfl hnm
        | noFile =>
          simp only [MemWorld.growObj] at hs
          split at hs
          · cases hs
          · rename_i w1 o1 hopt
            split at hopt
            · simp only [Option.some.injEq, Prod.mk.injEq, and_true] at hopt
              obtain ⟨rfl, rfl⟩ := hopt
              simp only [Option.some.injEq, Prod.mk.injEq] at hs
              rw [← hs.1]
              have : w.put i (some o) = w := by
                unfold MemWorld.put
                rw [show Function.update w.objs i (some o) = w.objs by rw [← ho]; exact Function.update_eq_self _ _]
              rw [this]; exact h
            · cases hopt
          · rename_i w1 o1 hopt
            split at hopt <;> cases hopt
        | «at» b =>
          by_cases hf : o.kind = .file
          · simp only [MemWorld.growObj, hf, if_true, ha, MemWorld.unmap] at hs
            split at hs
            · cases hs
            · rename_i hopt
              split at hopt <;> simp at hopt
            · rename_i w1 o1 hopt
              split at hopt
              · rename_i hb
                simp only [Option.some.injEq, Prod.mk.injEq, and_true] at hopt
                obtain ⟨rfl, rfl⟩ := hopt
                simp only [Option.some.injEq, Prod.mk.injEq] at hs
                rw [← hs.1]
                have g1 := h.unmap ho ha hsa hm none (by simp)
                have g2 := g1.map (i := i) (a := b) (by simp [MemWorld.put])
                  (by simpa [MemWorld.put, ha, MemWorld.unmap] using hb)
                  ⟨o.kind, wrapN64 (id + sizeIncrement), .addr b⟩ rfl
                have g3 := g2.access (i := i) (o := ⟨o.kind, wrapN64 (id + sizeIncrement), .addr b⟩) (by simp [MemWorld.put]) (by simp)
                simp only [ha, MemWorld.unmap] at g3
                have e : ∀ (x : MemWorld) (p : MemObj), ((x.put i none).map i b).put i (some p) = (x.map i b).put i (some p) := by
                  intro x p; simp [MemWorld.put, MemWorld.map]
                rw [e] at g3
                rw [hf] at g3
                exact g3
              · cases hopt
          · simp only [MemWorld.growObj, hf, if_false, ha] at hs
            split at hs
            · cases hs
            · rename_i hopt
              split at hopt <;> simp at hopt
            · rename_i w1 o1 hopt
              split at hopt
              · rename_i hb
                simp only [Option.some.injEq, Prod.mk.injEq, and_true] at hopt
                obtain ⟨rfl, rfl⟩ := hopt
                simp only [Option.some.injEq, Prod.mk.injEq] at hs
                rw [← hs.1]
                have g0 := h.access ho hc
                have g1 := g0.move (i := i) (o := o) ho ha hsa hm (b := b) (by
                    rcases hb.2 with rfl | h3
                    · exact .inl rfl
                    · exact .inr (by simpa [MemWorld.access] using h3))
                  ⟨o.kind, wrapN64 (id + sizeIncrement), .addr b⟩ rfl
                have g3 := g1.access (i := i) (o := ⟨o.kind, wrapN64 (id + sizeIncrement), .addr b⟩) (by simp [MemWorld.put]) (by simp)
                rw [ha] at g3
                exact g3
              · cases hopt
      · simp only [Option.some.injEq, Prod.mk.injEq] at hs
        rw [← hs.1]
        exact h.access ho hc
  | get i id =>
    simp only [MemWorld.step] at hs
    split at hs
    · cases hs
    · rename_i o ho
      simp only [Option.some.injEq, Prod.mk.injEq] at hs
      rw [← hs.1]
      exact h.access ho (hp o ho)
  | clear i =>
    simp only [MemWorld.step] at hs
    split at hs
    · cases hs
    · rename_i o ho
      simp only [Option.some.injEq, Prod.mk.injEq] at hs
      rw [← hs.1]
      exact (h.clear ho).2 (hp o ho)
  | destroy i =>
    simp only [MemWorld.step] at hs
    split at hs
    · cases hs
    · rename_i o ho
      simp only [Option.some.injEq, Prod.mk.injEq] at hs
      rw [← hs.1]
      exact (h.clear ho).1
  | otherMap a =>
    simp only [MemWorld.step] at hs
    split at hs
    · rename_i ha
      simp only [Option.some.injEq, Prod.mk.injEq] at hs
      rw [← hs.1]
      exact h.otherMap (by simpa using ha)
    · cases hs
  | otherUnmap a =>
    simp only [MemWorld.step] at hs
    split at hs
    · cases hs
    · rename_i s ha
      split at hs
      · cases hs
      · rename_i hm
        simp only [Option.some.injEq, Prod.mk.injEq] at hs
        rw [← hs.1]
        exact h.otherUnmap ha hm

theorem memInv_reach {w : MemWorld} (h : MemReach Tidy w) : MemInv w := by
  induction h with
  | init => exact MemInv.init
  | step _ hp hs ih => exact ih.step hp hs

/-- C101 (partial: `clear` is not called for `MmapAnon` and `MmapFile`, and they always get the memory they ask for):
whatever else is done with any number of storages, in any order, and wherever the system puts the memory, storages use
and give back their own memory only, each block once, and those that are gone have given back everything. -/
theorem storage_memory_partial (w : MemWorld) (h : MemReach Tidy w) : OnlyOwnMemory w ∧ NoMemoryLost w := by
  have hi := memInv_reach h
  refine ⟨hi.only, ?_⟩
  intro s i hm ho
  rcases hi.kept s i hm with hf | ⟨a, o, h1, -⟩
  · exact hf
  · rw [ho] at h1; cases h1

/-- `Tidy` as a test. (for the example) -/
def tidyTest (w : MemWorld) : MemOp → Bool
  | .clear i => (w.objs i).all fun o => o.kind == .fixed
  | .set i id answer => (w.objs i).all fun o => o.items != .null && (o.kind == .fixed || id < o.size || answer != .noMemory)
  | .get i _ => (w.objs i).all fun o => o.items != .null
  | _ => true

theorem tidyTest_sound {w : MemWorld} {op : MemOp} (h : tidyTest w op = true) : Tidy w op := by
  cases op with
  | clear i => intro o ho; simpa [tidyTest, ho] using h
  | set i id answer =>
    intro o ho
    simp only [tidyTest, ho, Option.all_some, Bool.and_eq_true, bne_iff_ne, ne_eq, Bool.or_eq_true, beq_iff_eq,
      decide_eq_true_eq] at h
    refine ⟨h.1, fun h1 h2 => ?_⟩
    rcases h.2 with (h3 | h3) | h3
    · exact absurd h3 h1
    · omega
    · exact h3
  | get i id => intro o ho; simpa [tidyTest, ho, Cleared] using h
  | _ => trivial

/-- A tidy program. (for the example) -/
def runTidy (w : MemWorld) : List MemOp → Option MemWorld
  | [] => some w
  | op :: ops => if tidyTest w op then (w.step op).bind fun r => runTidy r.1 ops else none

theorem runTidy_reach {w w' : MemWorld} {ops : List MemOp} (h : MemReach Tidy w) (hr : runTidy w ops = some w') :
    MemReach Tidy w' := by
  induction ops generalizing w with
  | nil => cases hr; exact h
  | cons op ops ih =>
    simp only [runTidy] at hr
    split at hr
    · rename_i ht
      cases hs : w.step op with
      | none => rw [hs] at hr; cases hr
      | some r =>
        rw [hs] at hr
        exact ih (.step h (tidyTest_sound ht) hs) hr
    · cases hr

/-- The hypotheses can be met: one storage of each kind; the two that grow do so, the first by moving its block; the
file can't be made larger at first; the array is cleared before it goes; another part of the program uses an address
that has become free. -/
example : ∃ w, MemReach Tidy w ∧ w.made = [(0, 0), (1, 1), (2, 2), (4, 2)] ∧
    w.freed = [(2, some 2), (0, some 0), (1, some 1), (2, some 4)] ∧
    (w.objs 0 = none ∧ w.objs 1 = none ∧ w.objs 2 = none) ∧ w.used.length = 5 ∧ w.blocks 200 = some 3 := by
  have h : (runTidy MemWorld.init [.create 0 .fixed 10 (some 100), .create 1 .anon 0 (some 200),
      .create 2 .file 0 (some 300), .set 0 7 .noMemory, .set 1 20971520 (.at 400), .otherMap 200, .set 2 5 .noFile,
      .set 2 5 (.at 300), .get 2 5, .clear 0, .destroy 0, .destroy 1, .destroy 2, .otherMap 100, .otherUnmap 100]).any
      (fun w => w.made == [(0, 0), (1, 1), (2, 2), (4, 2)] &&
        w.freed == [(2, some 2), (0, some 0), (1, some 1), (2, some 4)] &&
        (w.objs 0 == none && w.objs 1 == none && w.objs 2 == none) && w.used.length == 5 && w.blocks 200 == some 3) = true := by
    decide +kernel
  obtain ⟨w, hr, h⟩ := (Option.any_eq_true _ _).1 h
  simp only [Bool.and_eq_true, beq_iff_eq] at h
  exact ⟨w, runTidy_reach .init hr, h.1.1.1.1, h.1.1.1.2, ⟨h.1.1.2.1.1, h.1.1.2.1.2, h.1.1.2.2⟩, h.1.2, h.2⟩

/-! ### What goes wrong otherwise -/

/-- C101 fails for `clear`: it does what the documentation says, and the destructor comes later as it must; if another
part of the program has got memory at the same address in between, its memory is given back. -/
theorem storage_cleared_twice (k : MemKind) (hk : k ≠ .fixed) :
    (MemWorld.init.run [.create 0 k 0 (some 100), .clear 0, .otherMap 100, .destroy 0]).map
      (fun r => (r.1.made, r.1.freed, r.1.blocks 100)) = some ([(0, 0)], [(0, some 0), (0, some 1)], none) := by
  cases k <;> first | exact absurd rfl hk | rfl

/-- The same with two storages: the second one loses its memory, and what it reads then is not there. -/
theorem storage_cleared_other_used (k : MemKind) (hk : k ≠ .fixed) :
    (MemWorld.init.run [.create 0 k 0 (some 100), .clear 0, .create 1 k 0 (some 100), .destroy 0, .get 1 0]).map
      (fun r => (r.1.used, r.2)) = some ([(1, none)], [false, false, false, false, false]) := by
  cases k <;> first | exact absurd rfl hk | rfl

/-- C101 fails when there is not enough memory for a storage to grow: `set` throws an exception, and from then on
nothing that has been stored can be read; `MmapAnon` never gives its memory back. -/
theorem storage_failed_growth (id : Nat) (hid : sizeIncrement ≤ id) :
    (MemWorld.init.run [.create 0 .anon 0 (some 100), .set 0 1 .noMemory, .set 0 id .noMemory, .get 0 1, .destroy 0]).map
      (fun r => (r.2, r.1.used, r.1.freed, r.1.blocks 100)) =
      some ([false, false, true, false, false], [(0, some 0), (0, some 0), (0, none)], [(0, none)], some 0) ∧
    (MemWorld.init.run [.create 0 .file 0 (some 100), .set 0 0 .noMemory, .set 0 id .noMemory, .get 0 0, .destroy 0]).map
      (fun r => (r.2, r.1.used, r.1.freed)) =
      some ([false, false, true, false, false], [(0, some 0), (0, none)], [(0, some 0), (0, none)]) := by
  have h1 : 1 ≤ id := Nat.le_trans (by decide) hid
  have h2 : ¬ sizeIncrement ≤ 1 := by decide
  constructor <;>
    simp [MemWorld.run, MemWorld.step, MemWorld.init, MemWorld.put, MemWorld.map, MemWorld.access, MemWorld.behind,
      MemWorld.growObj, MemWorld.unmap, MemWorld.clearObj, hid, h1, h2]

/-- If only the file can't be made larger, `set` throws and everything is as before. -/
theorem storage_failed_file (w : MemWorld) (i id : Nat) (o : MemObj) (ho : w.objs i = some o) (hf : o.kind = .file)
    (hid : o.size ≤ id) : ∃ w', w.step (.set i id .noFile) = some (w', true) ∧ w'.objs = w.objs ∧ w'.blocks = w.blocks ∧
      w'.freed = w.freed ∧ w'.used = w.used := by
  refine ⟨w.put i (some o), ?_, ?_, rfl, rfl, rfl⟩
  · simp [MemWorld.step, ho, hf, hid, MemWorld.growObj]
  · simp only [MemWorld.put]; rw [← ho]; exact Function.update_eq_self _ _

/-- C101 fails for the files: the file of an `MmapFile` is open until the program ends, whatever is done. -/
theorem storage_file_stays_open (w w' : MemWorld) (op : MemOp) (thrown : Bool)
    (hs : w.step op = some (w', thrown)) : w.files <+: w'.files ∧
      (∀ i max answer, op = .create i .file max answer → w'.files = w.files ++ [i]) := by
  have hu : ∀ (w : MemWorld) i p, (w.unmap i p).1.files = w.files := by intro w i p; cases p <;> rfl
  have hc : ∀ (w : MemWorld) i o, (w.clearObj i o).files = w.files := by
    intro w i o
    unfold MemWorld.clearObj
    split
    · split
      · rfl
      · exact hu _ _ _
    · exact hu _ _ _
  have hg : ∀ (w : MemWorld) i id o a r, w.growObj i id o a = some r → r.1.files = w.files := by
    intro w i id o a r hr
    cases a with
    | noFile =>
      simp only [MemWorld.growObj] at hr
      split at hr
      · cases hr; rfl
      · cases hr
    | noMemory =>
      simp only [MemWorld.growObj] at hr
      split at hr
      · split at hr <;> cases hr <;> exact hu _ _ _
      · cases hr; rfl
    | «at» b =>
      simp only [MemWorld.growObj] at hr
      split at hr
      · split at hr
        · split at hr
          · cases hr; exact hu _ _ _
          · cases hr
        · cases hr; exact hu _ _ _
      · split at hr
        · split at hr
          · cases hr; rfl
          · cases hr
        · cases hr
  cases op with
  | create i kind max answer =>
    simp only [MemWorld.step] at hs
    split at hs
    · have : w'.files = if kind = .file then w.files ++ [i] else w.files := by
        cases answer with
        | none =>
          simp only [Option.some.injEq, Prod.mk.injEq] at hs
          rw [← hs.1]; split <;> rfl
        | some a =>
          simp only at hs
          split at hs
          · simp only [Option.some.injEq, Prod.mk.injEq] at hs
            rw [← hs.1]
            simp only [MemWorld.put, MemWorld.map]
            split <;> rfl
          · cases hs
      rw [this]
      refine ⟨by split <;> simp, ?_⟩
      rintro j m a h
      cases h; simp
    · cases hs
  | set i id answer =>
    refine ⟨?_, by simp⟩
    simp only [MemWorld.step] at hs
    split at hs
    · cases hs
    · split at hs
      · split at hs
        · cases hs
        · rename_i hr; cases hs; have := hg _ _ _ _ _ _ hr; simp only at this; simp [MemWorld.put, this]
        · rename_i hr; cases hs; have := hg _ _ _ _ _ _ hr; simp only at this; simp [MemWorld.put, MemWorld.access, this]
      · cases hs; exact List.prefix_refl _
  | get i id =>
    refine ⟨?_, by simp⟩
    simp only [MemWorld.step] at hs
    split at hs
    · cases hs
    · cases hs; exact List.prefix_refl _
  | clear i =>
    refine ⟨?_, by simp⟩
    simp only [MemWorld.step] at hs
    split at hs
    · cases hs
    · cases hs; rw [hc]; exact List.prefix_refl _
  | destroy i =>
    refine ⟨?_, by simp⟩
    simp only [MemWorld.step] at hs
    split at hs
    · cases hs
    · cases hs; simp only [MemWorld.put]; rw [hc]; exact List.prefix_refl _
  | otherMap a =>
    refine ⟨?_, by simp⟩
    simp only [MemWorld.step] at hs
    split at hs
    · cases hs; exact List.prefix_refl _
    · cases hs
  | otherUnmap a =>
    refine ⟨?_, by simp⟩
    simp only [MemWorld.step] at hs
    split at hs
    · cases hs
    · split at hs
      · cases hs
      · cases hs; exact List.prefix_refl _

end Osmium
