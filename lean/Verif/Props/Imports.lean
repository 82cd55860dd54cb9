import Verif.Imports
import Mathlib.Data.List.Rotate
import Mathlib.Order.Lattice
import Mathlib.Order.MinMax
import Mathlib.Data.List.Chain
import Mathlib.Data.List.Nodup
import Mathlib.Tactic.Ring

/-!
# C172: circular dependencies; C173: the dependency graph
-/

namespace SW
namespace Imp

section Search
variable {α : Type} [DecidableEq α]

/-! ### Specification -/

/-- a circular dependency: modules, each once, each depending on the next and the last on the first -/
def IsCycle (adj : α → List α) (c : List α) : Prop :=
  c ≠ [] ∧ c.Nodup ∧ List.IsChain (fun a b => b ∈ adj a) c ∧ ∀ a b, c.head? = some a → c.getLast? = some b → a ∈ adj b

/-- modules not visited yet -/
def left (mods : List α) (s : St α) : List α := mods.filter (fun m => decide (m ∉ s.visited))

/-- what holds between calls -/
structure Inv (adj : α → List α) (mods : List α) (long : Bool) (s : St α) : Prop where
  stack : s.stack = s.path.reverse
  nodup : s.path.Nodup
  chain : List.IsChain (fun a b => b ∈ adj a) s.path
  vis : ∀ x ∈ s.path, x ∈ s.visited
  sub : ∀ x ∈ s.visited, x ∈ mods
  sound : ∀ c ∈ s.cycles, IsCycle adj c ∧ (long = true → 1 < c.length)
  acyc : s.cycles = [] → ∀ x ∈ s.visited, x ∉ s.path → Acc (fun b a => b ∈ adj a ∧ (long = true → b ≠ a)) x

/-- what a call does -/
structure Post (s s' : St α) (v : α) : Prop where
  path : s'.path = s.path
  vis : ∀ x ∈ s.visited, x ∈ s'.visited
  mem : v ∈ s'.visited
  cyc : s.cycles <+: s'.cycles

theorem left_mono (mods : List α) (s s' : St α) (h : ∀ x ∈ s.visited, x ∈ s'.visited) :
    (left mods s').length ≤ (left mods s).length := by
  have : left mods s' = (left mods s).filter (fun m => decide (m ∉ s'.visited)) := by
    unfold left
    rw [List.filter_filter]
    apply List.filter_congr
    intro x _
    by_cases hx : x ∈ s'.visited
    · simp [hx]
    · have : x ∉ s.visited := fun h' => hx (h x h')
      simp [hx, this]
  rw [this]
  exact List.length_filter_le _ _

theorem left_lt (mods : List α) (s s' : St α) (v : α) (hv : v ∈ mods) (hn : v ∉ s.visited) (h : ∀ x, x ∈ s'.visited ↔ x = v ∨ x ∈ s.visited) :
    (left mods s').length < (left mods s).length := by
  have e : left mods s' = (left mods s).filter (fun m => decide (m ≠ v)) := by
    unfold left
    rw [List.filter_filter]
    apply List.filter_congr
    intro x _
    simp only [h]
    by_cases hx : x = v <;> by_cases hy : x ∈ s.visited <;> simp [hx, hy]
  rw [e]
  apply List.length_filter_lt_length_iff_exists.mpr
  exact ⟨v, by unfold left; simp [hv, hn], by simp⟩

theorem addCycle_cases (long : Bool) (v : α) (s : St α) :
    addCycle long v s = s ∧ long = true ∧ (s.path.drop (s.path.idxOf v)).length ≤ 1 ∨
    addCycle long v s = { s with cycles := s.cycles ++ [s.path.drop (s.path.idxOf v)] } ∧
      (long = true → 1 < (s.path.drop (s.path.idxOf v)).length) := by
  unfold addCycle
  cases long with
  | false => right; simp
  | true =>
    by_cases h : (s.path.drop (s.path.idxOf v)).length ≤ 1
    · left; simp only [Bool.true_and, h, decide_true, if_true, and_self]
    · right
      simp only [Bool.true_and, h, decide_false, Bool.false_eq_true, if_false, true_and]
      omega

theorem drop_idxOf (l : List α) (v : α) (h : v ∈ l) : ∃ t, l.drop (l.idxOf v) = v :: t ∧ t = l.drop (l.idxOf v + 1) := by
  have hlt : l.idxOf v < l.length := List.idxOf_lt_length_iff.mpr h
  refine ⟨l.drop (l.idxOf v + 1), ?_, rfl⟩
  rw [List.drop_eq_getElem_cons hlt]
  congr 1
  exact List.getElem_idxOf hlt

theorem back_edge (adj : α → List α) (mods : List α) (long : Bool) (s : St α) (v : α) (h : Inv adj mods long s) (hv : v ∈ s.path)
    (hlast : ∀ u, s.path.getLast? = some u → v ∈ adj u) : IsCycle adj (s.path.drop (s.path.idxOf v)) := by
  obtain ⟨t, ht, -⟩ := drop_idxOf s.path v hv
  have hlt : s.path.idxOf v < s.path.length := List.idxOf_lt_length_iff.mpr hv
  refine ⟨by rw [ht]; simp, (List.drop_sublist _ _).nodup h.nodup, h.chain.drop _, ?_⟩
  intro a b ha hb
  rw [ht] at ha
  have ha : v = a := by simpa using ha
  rw [List.getLast?_drop, if_neg (by omega)] at hb
  rw [← ha]; exact hlast b hb

theorem loop (adj : α → List α) (mods : List α) (long : Bool) (f : Nat)
    (hadj : ∀ a, ∀ b ∈ adj a, b ∈ mods)
    (ih : ∀ (v : α) (s : St α), v ∈ mods → Inv adj mods long s → (left mods s).length < f → (∀ u, s.path.getLast? = some u → v ∈ adj u) →
      Inv adj mods long (dfs adj long f v s) ∧ Post s (dfs adj long f v s) v ∧
      ((dfs adj long f v s).cycles = [] → v ∉ s.path ∨ (long = true ∧ s.path.getLast? = some v)))
    (u : α) (p : List α) :
    ∀ (ws : List α) (s : St α), (∀ w ∈ ws, w ∈ adj u) → s.path = p ++ [u] → Inv adj mods long s → (left mods s).length < f →
      let s' := ws.foldl (fun s w => dfs adj long f w s) s
      Inv adj mods long s' ∧ s'.path = p ++ [u] ∧ (∀ x ∈ s.visited, x ∈ s'.visited) ∧ s.cycles <+: s'.cycles ∧
      (s'.cycles = [] → ∀ w ∈ ws, (long = true → w ≠ u) → w ∈ s'.visited ∧ w ∉ s'.path) := by
  intro ws
  induction ws with
  | nil => intro s _ hp hs _; exact ⟨hs, hp, fun _ h => h, List.prefix_rfl, by simp⟩
  | cons w ws ihw =>
    intro s hw hp hs hl
    have hlast : ∀ x, s.path.getLast? = some x → w ∈ adj x := by
      intro x hx
      rw [hp] at hx
      have : u = x := by simpa using hx
      rw [← this]; exact hw w (by simp)
    obtain ⟨i1, p1, a1⟩ := ih w s (hadj u w (hw w (by simp))) hs hl hlast
    have hl1 : (left mods (dfs adj long f w s)).length < f := lt_of_le_of_lt (left_mono mods _ _ p1.vis) hl
    obtain ⟨i2, q2, v2, c2, e2⟩ := ihw (dfs adj long f w s) (fun x hx => hw x (by simp [hx])) (p1.path.trans hp) i1 hl1
    simp only [List.foldl_cons]
    refine ⟨i2, q2, fun x hx => v2 x (p1.vis x hx), p1.cyc.trans c2, ?_⟩
    intro hnil x hx hne
    rcases List.mem_cons.mp hx with rfl | hx
    · have hc1 : (dfs adj long f x s).cycles = [] := List.prefix_nil.mp (hnil ▸ c2)
      refine ⟨v2 x p1.mem, ?_⟩
      rw [q2, ← hp]
      rcases a1 hc1 with h | ⟨hL, h⟩
      · exact h
      · exfalso
        rw [hp] at h
        have : u = x := by simpa using h
        exact hne hL this.symm
    · exact e2 hnil x hx hne

theorem dfs_spec (adj : α → List α) (mods : List α) (long : Bool) (hadj : ∀ a, ∀ b ∈ adj a, b ∈ mods) : ∀ (f : Nat) (v : α) (s : St α),
    v ∈ mods → Inv adj mods long s → (left mods s).length < f → (∀ u, s.path.getLast? = some u → v ∈ adj u) →
      Inv adj mods long (dfs adj long f v s) ∧ Post s (dfs adj long f v s) v ∧
      ((dfs adj long f v s).cycles = [] → v ∉ s.path ∨ (long = true ∧ s.path.getLast? = some v)) := by
  intro f
  induction f with
  | zero => intro v s _ _ h; omega
  | succ f ih =>
    intro v s hv hs hl hlast
    unfold dfs
    by_cases h1 : v ∈ s.stack
    · rw [if_pos h1]
      have hvp : v ∈ s.path := by rw [hs.stack] at h1; simpa using h1
      rcases addCycle_cases long v s with ⟨e, hL, hlen⟩ | ⟨e, hL⟩
      · rw [e]
        refine ⟨hs, ⟨rfl, fun _ h => h, hs.vis v hvp, List.prefix_rfl⟩, fun _ => Or.inr ⟨hL, ?_⟩⟩
        obtain ⟨t, ht, -⟩ := drop_idxOf s.path v hvp
        rw [ht] at hlen
        have : t = [] := by
          cases t with
          | nil => rfl
          | cons a b => simp at hlen
        have hlt : s.path.idxOf v < s.path.length := List.idxOf_lt_length_iff.mpr hvp
        have hd : (s.path.drop (s.path.idxOf v)).getLast? = s.path.getLast? := by rw [List.getLast?_drop, if_neg (by omega)]
        rw [← hd, ht, this]; rfl
      · rw [e]
        have hcyc := back_edge adj mods long s v hs hvp hlast
        refine ⟨⟨hs.stack, hs.nodup, hs.chain, hs.vis, hs.sub, ?_, ?_⟩, ⟨rfl, fun _ h => h, hs.vis v hvp, List.prefix_append _ _⟩, ?_⟩
        · intro c hc
          rcases List.mem_append.mp hc with hc | hc
          · exact hs.sound c hc
          · have : c = s.path.drop (s.path.idxOf v) := by simpa using hc
            rw [this]; exact ⟨hcyc, hL⟩
        · intro h; simp at h
        · intro h; simp at h
    · rw [if_neg h1]
      have hvp : v ∉ s.path := by rw [hs.stack] at h1; simpa using h1
      by_cases h2 : v ∈ s.visited
      · rw [if_pos h2]
        exact ⟨hs, ⟨rfl, fun _ h => h, h2, List.prefix_rfl⟩, fun _ => Or.inl hvp⟩
      · rw [if_neg h2]
        obtain ⟨s1, hs1⟩ : ∃ s1 : St α, s1 = ⟨v :: s.visited, v :: s.stack, s.path ++ [v], s.cycles⟩ := ⟨_, rfl⟩
        have i1 : Inv adj mods long s1 := by
          rw [hs1]
          refine ⟨by simp [hs.stack], ?_, ?_, ?_, ?_, hs.sound, ?_⟩
          · rw [List.nodup_append]
            refine ⟨hs.nodup, by simp, ?_⟩
            intro a ha b hb
            have : b = v := by simpa using hb
            rw [this]; rintro rfl; exact hvp ha
          · show List.IsChain _ (s.path ++ [v])
            rw [List.isChain_append]
            refine ⟨hs.chain, by simp, ?_⟩
            intro x hx y hy
            have : v = y := by simpa using hy
            rw [← this]; exact hlast x hx
          · intro x hx
            rcases List.mem_append.mp hx with hx | hx
            · exact List.mem_cons_of_mem _ (hs.vis x hx)
            · have : x = v := by simpa using hx
              simp [this]
          · intro x hx
            rcases List.mem_cons.mp hx with rfl | hx
            · exact hv
            · exact hs.sub x hx
          · intro hc x hx hxp
            rcases List.mem_cons.mp hx with rfl | hx
            · exact absurd (by simp) hxp
            · exact hs.acyc hc x hx (fun h => hxp (List.mem_append_left _ h))
        have hl1 : (left mods s1).length < f := by
          have := left_lt mods s s1 v hv h2 (by intro x; rw [hs1]; simp)
          omega
        obtain ⟨i2, q2, v2, c2, e2⟩ := loop adj mods long f hadj ih v s.path (adj v) s1 (fun w h => h) (by rw [hs1]) i1 hl1
        rw [← hs1]
        obtain ⟨s2, hs2⟩ : ∃ s2, s2 = (adj v).foldl (fun s w => dfs adj long f w s) s1 := ⟨_, rfl⟩
        rw [← hs2] at i2 q2 v2 c2 e2 ⊢
        have hstk : s2.stack = v :: s.path.reverse := by rw [i2.stack, q2]; simp
        have hvis1 : ∀ x ∈ s.visited, x ∈ s2.visited := fun x hx => v2 x (by rw [hs1]; simp [hx])
        have hv2 : v ∈ s2.visited := v2 v (by rw [hs1]; simp)
        have hc1 : s1.cycles = s.cycles := by rw [hs1]
        refine ⟨⟨?_, ?_, ?_, ?_, i2.sub, i2.sound, ?_⟩, ⟨?_, hvis1, hv2, hc1 ▸ c2⟩, fun _ => Or.inl hvp⟩
        · show s2.stack.erase v = s2.path.dropLast.reverse
          rw [hstk, q2]; simp
        · show s2.path.dropLast.Nodup
          rw [q2]; simpa using hs.nodup
        · show List.IsChain _ s2.path.dropLast
          rw [q2]; simpa using hs.chain
        · intro x hx
          have hx : x ∈ s2.path.dropLast := hx
          exact i2.vis x (List.dropLast_subset _ hx)
        · intro hc x hx hxp
          have hxp : x ∉ s2.path.dropLast := hxp
          rw [q2] at hxp
          have hxp : x ∉ s.path := by simpa using hxp
          by_cases hxv : x = v
          · subst hxv
            apply Acc.intro
            rintro w ⟨hw, hne⟩
            obtain ⟨a, b⟩ := e2 hc w hw hne
            exact i2.acyc hc w a b
          · exact i2.acyc hc x hx (by rw [q2]; simp [hxp, hxv])
        · show s2.path.dropLast = s.path
          rw [q2]; simp

theorem search_spec (adj : α → List α) (long : Bool) (mods : List α) (hadj : ∀ a, ∀ b ∈ adj a, b ∈ mods) (f : Nat) (hf : mods.length < f) :
    Inv adj mods long (search adj long f mods) ∧ (search adj long f mods).path = [] ∧ ∀ m ∈ mods, m ∈ (search adj long f mods).visited := by
  have key : ∀ (ms : List α) (s : St α), (∀ m ∈ ms, m ∈ mods) → Inv adj mods long s → s.path = [] →
      let s' := ms.foldl (fun s m => if m ∈ s.visited then s else dfs adj long f m s) s
      Inv adj mods long s' ∧ s'.path = [] ∧ (∀ x ∈ s.visited, x ∈ s'.visited) ∧ ∀ m ∈ ms, m ∈ s'.visited := by
    intro ms
    induction ms with
    | nil => intro s _ hs hp; exact ⟨hs, hp, fun _ h => h, by simp⟩
    | cons m ms ih =>
      intro s hm hs hp
      simp only [List.foldl_cons]
      by_cases h : m ∈ s.visited
      · rw [if_pos h]
        obtain ⟨a, b, c, d⟩ := ih s (fun x hx => hm x (by simp [hx])) hs hp
        refine ⟨a, b, c, ?_⟩
        intro x hx
        rcases List.mem_cons.mp hx with rfl | hx
        · exact c x h
        · exact d x hx
      · rw [if_neg h]
        have hl : (left mods s).length < f := lt_of_le_of_lt (List.length_filter_le _ _) hf
        obtain ⟨i1, p1, -⟩ := dfs_spec adj mods long hadj f m s (hm m (by simp)) hs hl (by rw [hp]; simp)
        obtain ⟨a, b, c, d⟩ := ih _ (fun x hx => hm x (by simp [hx])) i1 (p1.path.trans hp)
        refine ⟨a, b, fun x hx => c x (p1.vis x hx), ?_⟩
        intro x hx
        rcases List.mem_cons.mp hx with rfl | hx
        · exact c x p1.mem
        · exact d x hx
  obtain ⟨a, b, -, d⟩ := key mods ⟨[], [], [], []⟩ (fun m h => h)
    ⟨rfl, by simp, by simp, by simp, by simp, by simp, by simp⟩ rfl
  exact ⟨a, b, d⟩

/-- The depth bound is never reached: more depth gives the same result. -/
theorem dfs_fuel (adj : α → List α) (mods : List α) (long : Bool) (hadj : ∀ a, ∀ b ∈ adj a, b ∈ mods) : ∀ (f : Nat) (v : α) (s : St α),
    v ∈ mods → Inv adj mods long s → (left mods s).length < f → (∀ u, s.path.getLast? = some u → v ∈ adj u) →
      dfs adj long (f + 1) v s = dfs adj long f v s := by
  intro f
  induction f with
  | zero => intro v s _ _ h; omega
  | succ f ih =>
    intro v s hv hs hl hlast
    rw [dfs]
    conv_rhs => rw [dfs]
    by_cases h1 : v ∈ s.stack
    · rw [if_pos h1, if_pos h1]
    · rw [if_neg h1, if_neg h1]
      by_cases h2 : v ∈ s.visited
      · rw [if_pos h2, if_pos h2]
      · rw [if_neg h2, if_neg h2]
        have hvp : v ∉ s.path := by rw [hs.stack] at h1; simpa using h1
        have i1 : Inv adj mods long ⟨v :: s.visited, v :: s.stack, s.path ++ [v], s.cycles⟩ := by
          refine ⟨by simp [hs.stack], ?_, ?_, ?_, ?_, hs.sound, ?_⟩
          · rw [List.nodup_append]
            refine ⟨hs.nodup, by simp, ?_⟩
            intro a ha b hb
            have : b = v := by simpa using hb
            rw [this]; rintro rfl; exact hvp ha
          · show List.IsChain _ (s.path ++ [v])
            rw [List.isChain_append]
            refine ⟨hs.chain, by simp, ?_⟩
            intro x hx y hy
            have : v = y := by simpa using hy
            rw [← this]; exact hlast x hx
          · intro x hx
            rcases List.mem_append.mp hx with hx | hx
            · exact List.mem_cons_of_mem _ (hs.vis x hx)
            · have : x = v := by simpa using hx
              simp [this]
          · intro x hx
            rcases List.mem_cons.mp hx with rfl | hx
            · exact hv
            · exact hs.sub x hx
          · intro hc x hx hxp
            rcases List.mem_cons.mp hx with rfl | hx
            · exact absurd (by simp) hxp
            · exact hs.acyc hc x hx (fun h => hxp (List.mem_append_left _ h))
        have hl1 : (left mods ⟨v :: s.visited, v :: s.stack, s.path ++ [v], s.cycles⟩).length < f := by
          have := left_lt mods s ⟨v :: s.visited, v :: s.stack, s.path ++ [v], s.cycles⟩ v hv h2 (by intro x; simp)
          omega
        have key : ∀ (ws : List α) (t : St α), (∀ w ∈ ws, w ∈ adj v) → t.path = s.path ++ [v] → Inv adj mods long t →
            (left mods t).length < f →
            ws.foldl (fun s w => dfs adj long (f + 1) w s) t = ws.foldl (fun s w => dfs adj long f w s) t := by
          intro ws
          induction ws with
          | nil => intro t _ _ _ _; rfl
          | cons w ws ihw =>
            intro t hw hp ht htl
            have hlast' : ∀ x, t.path.getLast? = some x → w ∈ adj x := by
              intro x hx
              rw [hp] at hx
              have : v = x := by simpa using hx
              rw [← this]; exact hw w (by simp)
            have hwm := hadj v w (hw w (by simp))
            simp only [List.foldl_cons]
            rw [ih w t hwm ht htl hlast']
            obtain ⟨i, p, -⟩ := dfs_spec adj mods long hadj f w t hwm ht htl hlast'
            exact ihw _ (fun x hx => hw x (by simp [hx])) (p.path.trans hp) i (lt_of_le_of_lt (left_mono mods _ _ p.vis) htl)
        simp only [key (adj v) _ (fun w h => h) rfl i1 hl1]

theorem C172_terminates (adj : α → List α) (long : Bool) (mods : List α) (hadj : ∀ a, ∀ b ∈ adj a, b ∈ mods) (k : Nat) :
    search adj long (mods.length + 1 + k) mods = search adj long (mods.length + 1) mods := by
  have hd : ∀ (k : Nat) (v : α) (s : St α), v ∈ mods → Inv adj mods long s → s.path = [] →
      dfs adj long (mods.length + 1 + k) v s = dfs adj long (mods.length + 1) v s := by
    intro k v s hv hs hp
    induction k with
    | zero => rfl
    | succ k ih =>
      have hl : (left mods s).length < mods.length + 1 + k :=
        lt_of_le_of_lt (List.length_filter_le _ _) (by omega)
      rw [← ih]
      exact dfs_fuel adj mods long hadj _ v s hv hs hl (by rw [hp]; simp)
  unfold search
  have key : ∀ (ms : List α) (s : St α), (∀ m ∈ ms, m ∈ mods) → Inv adj mods long s → s.path = [] →
      ms.foldl (fun s m => if m ∈ s.visited then s else dfs adj long (mods.length + 1 + k) m s) s
        = ms.foldl (fun s m => if m ∈ s.visited then s else dfs adj long (mods.length + 1) m s) s := by
    intro ms
    induction ms with
    | nil => intro s _ _ _; rfl
    | cons m ms ih =>
      intro s hm hs hp
      simp only [List.foldl_cons]
      by_cases h : m ∈ s.visited
      · rw [if_pos h, if_pos h]; exact ih s (fun x hx => hm x (by simp [hx])) hs hp
      · rw [if_neg h, if_neg h, hd k m s (hm m (by simp)) hs hp]
        have hl : (left mods s).length < mods.length + 1 := lt_of_le_of_lt (List.length_filter_le _ _) (by omega)
        obtain ⟨i1, p1, -⟩ := dfs_spec adj mods long hadj (mods.length + 1) m s (hm m (by simp)) hs hl (by rw [hp]; simp)
        exact ih _ (fun x hx => hm x (by simp [hx])) i1 (p1.path.trans hp)
  exact key mods _ (fun m h => h) ⟨rfl, by simp, by simp, by simp, by simp, by simp, by simp⟩ rfl

theorem cycle_rotate (adj : α → List α) (a b : List α) (h : IsCycle adj (a ++ b)) : IsCycle adj (b ++ a) := by
  by_cases ha : a = []
  · subst ha; simpa using h
  by_cases hb : b = []
  · subst hb; simpa using h
  obtain ⟨h0, hn, hc, he⟩ := h
  rw [List.isChain_append] at hc
  obtain ⟨hca, hcb, hab⟩ := hc
  refine ⟨by simp [ha], ?_, ?_, ?_⟩
  · rw [List.nodup_append] at hn ⊢
    exact ⟨hn.2.1, hn.1, fun x hx y hy e => hn.2.2 y hy x hx e.symm⟩
  · rw [List.isChain_append]
    refine ⟨hcb, hca, ?_⟩
    intro x hx y hy
    exact he y x (by rw [List.head?_append_of_ne_nil _ ha]; exact hy) (by rw [List.getLast?_append_of_ne_nil _ hb]; exact hx)
  · intro x y hx hy
    rw [List.head?_append_of_ne_nil _ hb] at hx
    rw [List.getLast?_append_of_ne_nil _ ha] at hy
    exact hab y hy x hx

theorem cycle_next (adj : α → List α) (c : List α) (h : IsCycle adj c) (x : α) (hx : x ∈ c) :
    ∃ y ∈ c, y ∈ adj x ∧ (1 < c.length → y ≠ x) := by
  obtain ⟨p, q, rfl⟩ := List.append_of_mem hx
  have hr := cycle_rotate adj p (x :: q) h
  rw [List.cons_append] at hr
  obtain ⟨-, hn, hc, he⟩ := hr
  cases hq : q ++ p with
  | nil =>
    rw [hq] at he
    refine ⟨x, by simp, he x x rfl rfl, ?_⟩
    intro hl
    have : (q ++ p).length = 0 := by rw [hq]; rfl
    rw [List.length_append] at this
    rw [List.length_append, List.length_cons] at hl
    omega
  | cons y t =>
    rw [hq] at hn hc
    refine ⟨y, ?_, ?_, ?_⟩
    · have : y ∈ q ++ p := by rw [hq]; simp
      simp only [List.mem_append, List.mem_cons] at this ⊢
      tauto
    · rw [List.isChain_cons_cons] at hc; exact hc.1
    · intro _ e
      rw [e] at hn
      simp at hn

theorem no_cycle (adj : α → List α) (long : Bool) (x : α) (h : Acc (fun b a => b ∈ adj a ∧ (long = true → b ≠ a)) x) :
    ∀ c, IsCycle adj c → (long = true → 1 < c.length) → x ∈ c → False := by
  induction h with
  | intro x _ ih =>
    intro c hc hl hx
    obtain ⟨y, hy, hadj, hne⟩ := cycle_next adj c hc x hx
    exact ih y ⟨hadj, fun h => hne (hl h)⟩ c hc hl hy

end Search

section Names
variable {α : Type} [LinearOrder α]

theorem foldl_min (t : List α) : ∀ a : α, (t.foldl min a ∈ a :: t) ∧ ∀ x ∈ a :: t, t.foldl min a ≤ x := by
  induction t with
  | nil => intro a; simp
  | cons b t ih =>
    intro a
    obtain ⟨h1, h2⟩ := ih (min a b)
    simp only [List.foldl_cons]
    constructor
    · rcases List.mem_cons.mp h1 with h | h
      · rcases min_choice a b with e | e
        · rw [h, e]; simp
        · rw [h, e]; simp
      · simp [h]
    · intro x hx
      rcases List.mem_cons.mp hx with rfl | hx
      · exact le_trans (h2 (min x b) (by simp)) (min_le_left _ _)
      · rcases List.mem_cons.mp hx with rfl | hx
        · exact le_trans (h2 (min a x) (by simp)) (min_le_right _ _)
        · exact h2 x (by simp [hx])

/-- begins with its smallest name -/
def SmallFirst (c : List α) : Prop := ∀ a, c.head? = some a → ∀ x ∈ c, a ≤ x

theorem normalise_spec (c : List α) : ∃ a b, c = a ++ b ∧ normalise c = b ++ a ∧ SmallFirst (normalise c) ∧ (c ≠ [] → normalise c ≠ []) := by
  cases c with
  | nil => exact ⟨[], [], rfl, rfl, by intro a h; simp [normalise] at h, by simp⟩
  | cons a t =>
    obtain ⟨h1, h2⟩ := foldl_min t a
    generalize hm : t.foldl min a = m at h1 h2
    have hdrop := drop_idxOf (a :: t) m h1
    obtain ⟨u, hu, -⟩ := hdrop
    have hnorm : normalise (a :: t) = (a :: t).drop ((a :: t).idxOf m) ++ (a :: t).take ((a :: t).idxOf m) := by
      unfold normalise; simp only [hm]
    refine ⟨(a :: t).take ((a :: t).idxOf m), (a :: t).drop ((a :: t).idxOf m), (List.take_append_drop _ _).symm, hnorm, ?_, ?_⟩
    · intro x hx y hy
      rw [hnorm] at hx hy
      rw [hu] at hx
      have : m = x := by simpa using hx
      rw [← this]
      apply h2
      rcases List.mem_append.mp hy with hy | hy
      · exact List.mem_of_mem_drop hy
      · exact List.mem_of_mem_take hy
    · intro _; rw [hnorm, hu]; simp

theorem unique_spec (cs : List (List α)) :
    (unique cs).Nodup ∧ (∀ c, c ∈ unique cs ↔ ∃ d ∈ cs, d ≠ [] ∧ normalise d = c) := by
  have key : ∀ (cs u : List (List α)), u.Nodup →
      let r := cs.foldl (fun u c => if c = [] then u else if normalise c ∈ u then u else u ++ [normalise c]) u
      r.Nodup ∧ ∀ c, c ∈ r ↔ c ∈ u ∨ ∃ d ∈ cs, d ≠ [] ∧ normalise d = c := by
    intro cs
    induction cs with
    | nil => intro u hu; exact ⟨hu, by simp⟩
    | cons d cs ih =>
      intro u hu
      simp only [List.foldl_cons]
      by_cases h0 : d = []
      · rw [if_pos h0]
        obtain ⟨a, b⟩ := ih u hu
        refine ⟨a, fun c => ?_⟩
        rw [b c]; simp [h0]
      · rw [if_neg h0]
        by_cases h1 : normalise d ∈ u
        · rw [if_pos h1]
          obtain ⟨a, b⟩ := ih u hu
          refine ⟨a, fun c => ?_⟩
          rw [b c]
          constructor
          · rintro (h | ⟨e, he, h⟩)
            · exact Or.inl h
            · exact Or.inr ⟨e, by simp [he], h⟩
          · rintro (h | ⟨e, he, hne, h⟩)
            · exact Or.inl h
            · rcases List.mem_cons.mp he with rfl | he
              · exact Or.inl (h ▸ h1)
              · exact Or.inr ⟨e, he, hne, h⟩
        · rw [if_neg h1]
          obtain ⟨a, b⟩ := ih (u ++ [normalise d]) (by
            rw [List.nodup_append]
            refine ⟨hu, by simp, ?_⟩
            intro x hx y hy
            have : y = normalise d := by simpa using hy
            rw [this]; rintro rfl; exact h1 hx)
          refine ⟨a, fun c => ?_⟩
          rw [b c]
          constructor
          · rintro (h | ⟨e, he, h⟩)
            · rcases List.mem_append.mp h with h | h
              · exact Or.inl h
              · have : c = normalise d := by simpa using h
                exact Or.inr ⟨d, by simp, h0, this.symm⟩
            · exact Or.inr ⟨e, by simp [he], h⟩
          · rintro (h | ⟨e, he, hne, h⟩)
            · exact Or.inl (by simp [h])
            · rcases List.mem_cons.mp he with rfl | he
              · exact Or.inl (by simp [h])
              · exact Or.inr ⟨e, he, hne, h⟩
  obtain ⟨a, b⟩ := key cs [] (by simp)
  exact ⟨a, fun c => by rw [unique, b c]; simp⟩

/-- Every circular dependency reported is one: modules, each once, each importing the next and the last the first.  It begins with the
smallest name.  (`analyze_imports_fixed` reports only those of more than one module.) -/
theorem C172_sound (adj : α → List α) (long : Bool) (mods : List α) (hadj : ∀ a, ∀ b ∈ adj a, b ∈ mods) (c : List α)
    (hc : c ∈ cycles adj long mods) : IsCycle adj c ∧ SmallFirst c ∧ (long = true → 1 < c.length) := by
  obtain ⟨inv, -, -⟩ := search_spec adj long mods hadj (mods.length + 1) (by omega)
  obtain ⟨d, hd, hne, rfl⟩ := ((unique_spec _).2 c).mp hc
  obtain ⟨hcd, hl⟩ := inv.sound d hd
  obtain ⟨a, b, e1, e2, hs, -⟩ := normalise_spec d
  refine ⟨?_, hs, ?_⟩
  · rw [e2]; rw [e1] at hcd; exact cycle_rotate adj a b hcd
  · intro h
    have := hl h
    rw [e1, List.length_append] at this
    rw [e2, List.length_append]; omega

/-- A circular dependency is reported iff there is one, whatever order modules and imports are visited in. -/
theorem C172_found (adj : α → List α) (long : Bool) (mods : List α) (hadj : ∀ a, ∀ b ∈ adj a, b ∈ mods) :
    cycles adj long mods ≠ [] ↔ ∃ c, IsCycle adj c ∧ (∀ x ∈ c, x ∈ mods) ∧ (long = true → 1 < c.length) := by
  obtain ⟨inv, hp, hall⟩ := search_spec adj long mods hadj (mods.length + 1) (by omega)
  constructor
  · intro h
    obtain ⟨c, hc⟩ := List.exists_mem_of_ne_nil _ h
    obtain ⟨h1, -, h3⟩ := C172_sound adj long mods hadj c hc
    refine ⟨c, h1, ?_, h3⟩
    intro x hx
    obtain ⟨p, q, rfl⟩ := List.append_of_mem hx
    have hr := cycle_rotate adj p (x :: q) h1
    have hlast : ∃ z, (x :: q ++ p).getLast? = some z := ⟨_, List.getLast?_eq_some_getLast (by simp)⟩
    obtain ⟨z, hz⟩ := hlast
    exact hadj z x (hr.2.2.2 x z rfl hz)
  · rintro ⟨c, hc, hm, hl⟩ hnil
    have hcy : (search adj long (mods.length + 1) mods).cycles = [] := by
      by_contra hne
      obtain ⟨d, hd⟩ := List.exists_mem_of_ne_nil _ hne
      have hd0 := (inv.sound d hd).1.1
      have : normalise d ∈ cycles adj long mods := ((unique_spec _).2 _).mpr ⟨d, hd, hd0, rfl⟩
      rw [hnil] at this
      simp at this
    obtain ⟨x, hx⟩ := List.exists_mem_of_ne_nil _ hc.1
    exact no_cycle adj long x (inv.acyc hcy x (hall x (hm x hx)) (by rw [hp]; simp)) c hc hl hx

/-- No circular dependency is reported twice, not even starting from another of its modules. -/
theorem C172_once (adj : α → List α) (long : Bool) (mods : List α) (hadj : ∀ a, ∀ b ∈ adj a, b ∈ mods) :
    (cycles adj long mods).Nodup ∧ ∀ c ∈ cycles adj long mods, ∀ d ∈ cycles adj long mods, ∀ a b, c = a ++ b → d = b ++ a → c = d := by
  refine ⟨(unique_spec _).1, ?_⟩
  intro c hc d hd a b e1 e2
  obtain ⟨hc1, hcs, -⟩ := C172_sound adj long mods hadj c hc
  obtain ⟨hd1, hds, -⟩ := C172_sound adj long mods hadj d hd
  cases a with
  | nil => rw [e1, e2]; simp
  | cons x a =>
    cases b with
    | nil => rw [e1, e2]; simp
    | cons y b =>
      have h1 : x ≤ y := hcs x (by rw [e1]; rfl) y (by rw [e1]; simp)
      have h2 : y ≤ x := hds y (by rw [e2]; rfl) x (by rw [e2]; simp)
      have hxy : x = y := le_antisymm h1 h2
      have hn := hc1.2.1
      rw [e1, hxy] at hn
      simp at hn

/-- Violated: not every circular dependency is reported: with imports 0 → 1, 1 → 2, 2 → 0, 0 → 2 the cycle of 0 and 2 is missed (and whether
it is depends on the order in which a set is iterated). -/
theorem C172_missed : ∃ (adj : Nat → List Nat) (mods c : List Nat), (∀ a, ∀ b ∈ adj a, b ∈ mods) ∧ IsCycle adj c ∧ SmallFirst c ∧
    c ∉ cycles adj true mods ∧ c ∉ cycles adj false mods ∧
    ∃ adj' : Nat → List Nat, (∀ a, (adj' a).Perm (adj a)) ∧ c ∈ cycles adj' true mods := by
  refine ⟨fun n => if n = 0 then [1, 2] else if n = 1 then [2] else if n = 2 then [0] else [], [0, 1, 2], [0, 2], ?_, ?_, ?_, by decide,
    by decide, fun n => if n = 0 then [2, 1] else if n = 1 then [2] else if n = 2 then [0] else [], ?_, by decide⟩
  · intro a b hb
    by_cases h0 : a = 0
    · simp [h0] at hb; rcases hb with rfl | rfl <;> simp
    · by_cases h1 : a = 1
      · simp [h1] at hb; simp [hb]
      · by_cases h2 : a = 2
        · simp [h2] at hb; simp [hb]
        · simp [h0, h1, h2] at hb
  · exact ⟨by simp, by decide, by simp, by intro a b ha hb; simp at ha hb; subst ha hb; simp⟩
  · intro a ha x hx
    simp at ha; omega
  · intro a
    by_cases h0 : a = 0
    · simp only [h0, if_true]; exact List.Perm.swap 1 2 []
    · simp only [h0, if_false]; exact List.Perm.refl _

example : cycles (fun n : Nat => if n = 0 then [1] else if n = 1 then [2] else [0]) true [2, 1, 0] = [[0, 1, 2]] := by decide

end Names

/-! ### C173 -/

/-- Python's own rule for `from ..name import …` (`level` dots) in a module of the package `package` (of the package itself for its
`__init__`): one dot is the package, each further dot its parent. -/
def PyRelative (package : List Txt) (level : Nat) (name : List Txt) : Option (List Txt) :=
  if level - 1 < package.length then some (package.take (package.length - (level - 1)) ++ name) else none

/-- the package a file belongs to, by its path below the root -/
def packageOf (root : Txt) (f : File) : List Txt := root :: f.parts.dropLast

/-- In an ordinary module relative imports are resolved as Python does. -/
theorem C173_relative (root : Txt) (f : File) (i : Imp) (hl : 0 < i.level) (hp : f.parts ≠ []) (hi : f.parts.getLast? ≠ some initW)
    (hr : f.parts ≠ [root]) : relative i (nameFixed root f) = PyRelative (packageOf root f) i.level i.name := by
  have hn : nameFixed root f = root :: f.parts := by unfold nameFixed; simp [hi, hp, hr]
  have hlen : 0 < f.parts.length := List.length_pos_iff.mpr hp
  rw [hn]
  unfold relative PyRelative packageOf
  rw [if_pos hl]
  have e1 : (root :: f.parts).length = f.parts.length + 1 := rfl
  have e2 : (root :: f.parts.dropLast).length = f.parts.length := by simp; omega
  rw [e1, e2]
  by_cases h : f.parts.length + 1 ≤ i.level
  · rw [if_pos h, if_neg (by omega)]
  · rw [if_neg h, if_pos (by omega)]
    congr 2
    have hd : f.parts.dropLast = f.parts.take (f.parts.length - 1) := List.dropLast_eq_take
    rw [show f.parts.length + 1 - i.level = (f.parts.length - i.level) + 1 by omega,
      show f.parts.length - (i.level - 1) = (f.parts.length - i.level) + 1 by omega, List.take_succ_cons, List.take_succ_cons, hd,
      List.take_take]
    congr 2
    omega

/-- Violated: in the `__init__` of a package they are resolved one package too high, so never as Python does. -/
theorem C173_relative_init (root : Txt) (dirs : List Txt) (imports : List Imp) (i : Imp) (hl : 0 < i.level) (hr : dirs ≠ [root])
    (r : List Txt) (hpy : PyRelative (packageOf root ⟨dirs ++ [initW], imports⟩) i.level i.name = some r) :
    relative i (nameFixed root ⟨dirs ++ [initW], imports⟩) = PyRelative (packageOf root ⟨dirs ++ [initW], imports⟩) (i.level + 1) i.name ∧
    relative i (nameFixed root ⟨dirs ++ [initW], imports⟩) ≠ some r := by
  have hn : nameFixed root ⟨dirs ++ [initW], imports⟩ = root :: dirs := by
    unfold nameFixed
    by_cases hd : dirs = []
    · simp [hd]
    · simp [hd, hr]
  have hpk : packageOf root ⟨dirs ++ [initW], imports⟩ = root :: dirs := by simp [packageOf]
  rw [hpk] at hpy
  rw [hn, hpk]
  have hrel : relative i (root :: dirs) = PyRelative (root :: dirs) (i.level + 1) i.name := by
    unfold relative PyRelative
    rw [if_pos hl]
    by_cases h : (root :: dirs).length ≤ i.level
    · rw [if_pos h, if_neg (by omega)]
    · rw [if_neg h, if_pos (by omega)]; rfl
  refine ⟨hrel, ?_⟩
  rw [hrel]
  intro h
  unfold PyRelative at h hpy
  split at h
  · split at hpy
    · have a := Option.some.inj h
      have b := Option.some.inj hpy
      have := congrArg List.length (a.trans b.symm)
      simp only [List.length_append, List.length_take] at this
      omega
    · simp at hpy
  · simp at h

/-- An absolute import of a module of the package leads to that module; one of another package to none. -/
theorem C173_absolute (root : Txt) (mods : List (List Txt)) (cur : List Txt) (p : Txt) (name : List Txt) :
    (p = root → p :: name ∈ mods → resolveFixed root mods ⟨p :: name, 0⟩ cur = some (p :: name)) ∧
    (¬ root <+: p → resolveFixed root mods ⟨p :: name, 0⟩ cur = none) := by
  constructor
  · rintro rfl hm
    simp [resolveFixed, relative, startsWith, hm]
  · intro h
    have : root.isPrefixOf p = false := by
      rw [Bool.eq_false_iff]; intro hc; exact h (List.isPrefixOf_iff_prefix.mp hc)
    simp [resolveFixed, relative, startsWith, this]

/-- Violated ("an import of a package depends on that package"): the name of a package that is not itself among the modules scanned leads
to the first module scanned that lies below it, and to none if no module does. -/
theorem C173_subpackage (root : Txt) (mods : List (List Txt)) (cur : List Txt) (name : List Txt) (hnot : root :: name ∉ mods) :
    (∀ a m b, mods = a ++ m :: b → root :: name <+: m → (∀ x ∈ a, ¬ root :: name <+: x) →
      resolveFixed root mods ⟨root :: name, 0⟩ cur = some m) ∧
    ((∀ m ∈ mods, ¬ root :: name <+: m) → resolveFixed root mods ⟨root :: name, 0⟩ cur = none) := by
  have e : resolveFixed root mods ⟨root :: name, 0⟩ cur =
      mods.find? (fun m => decide (root :: name <+: m ∧ root :: name ≠ m)) := by
    simp only [resolveFixed, relative, lt_irrefl, if_false, if_neg hnot]
    rw [if_pos (by simp [startsWith])]
  rw [e]
  constructor
  · rintro a m b rfl hm ha
    rw [List.find?_append]
    have h1 : a.find? (fun m => decide (root :: name <+: m ∧ root :: name ≠ m)) = none := by
      rw [List.find?_eq_none]; intro x hx; simp [ha x hx]
    have h2 : root :: name ≠ m := by rintro rfl; exact hnot (by simp)
    rw [h1, Option.none_or, List.find?_cons_of_pos (by simp only [decide_eq_true_eq]; exact ⟨hm, h2⟩)]
  · intro h
    rw [List.find?_eq_none]; intro x hx; simp [h x hx]

/-- non-vacuity: `import solarwindpy.core` when only its modules were scanned -/
example : resolveFixed pkg [[pkg, "a".toList], [pkg, "core".toList, "b".toList], [pkg, "core".toList, "c".toList]]
    ⟨[pkg, "core".toList], 0⟩ [pkg, "a".toList] = some [pkg, "core".toList, "b".toList] := by decide

/-- A dependency is recorded exactly for each import statement that names a module and leads to one of the modules scanned.  Violated:
`from . import x` names no module, so it never counts. -/
theorem C173_edges (mods : List (List Txt)) (res : Imp → List Txt → Option (List Txt)) (cur : List Txt) (f : File) (t : List Txt) :
    (t ∈ deps mods res cur f ↔ t ∈ mods ∧ ∃ i ∈ f.imports, i.name ≠ [] ∧ res i cur = some t) ∧
    deps mods res cur f = deps mods res cur ⟨f.parts, f.imports.filter (fun i => decide (i.name ≠ []))⟩ := by
  constructor
  · unfold deps recorded
    simp only [List.mem_filter, List.mem_filterMap, decide_eq_true_eq]
    constructor
    · rintro ⟨⟨i, ⟨hi, hn⟩, hr⟩, hm⟩; exact ⟨hm, i, hi, hn, hr⟩
    · rintro ⟨hm, i, hi, hn, hr⟩; exact ⟨⟨i, ⟨hi, hn⟩, hr⟩, hm⟩
  · unfold deps recorded
    simp only [List.filter_filter, Bool.and_self]

/-- Violated: `analyze_imports_simple` looks for names beginning with "solarwindpy" among modules named by their path below the package
directory, so for a package with no part of that name it records no dependency and reports no circular dependency, whatever is imported. -/
theorem C173_simple_finds_nothing (files : List File) (hf : ∀ f ∈ files, ∀ a, f.parts.head? = some a → ¬ "solarwindpy".toList <+: a)
    (hne : ∀ f ∈ files, f.parts ≠ []) (adj : List Txt → List (List Txt))
    (hadj : ∀ m, ∀ t ∈ adj m, ∃ f ∈ files, t ∈ deps (files.map nameSimple) resolveSimple (nameSimple f) f) :
    (∀ f ∈ files, deps (files.map nameSimple) resolveSimple (nameSimple f) f = []) ∧
    (search adj false (files.length + 1) (files.map nameSimple)).cycles = [] := by
  have hdep : ∀ f ∈ files, deps (files.map nameSimple) resolveSimple (nameSimple f) f = [] := by
    intro f _
    rw [List.eq_nil_iff_forall_not_mem]
    intro t ht
    obtain ⟨hm, i, -, -, hr⟩ := (C173_edges _ _ _ _ t).1.mp ht
    rw [List.mem_map] at hm
    obtain ⟨g, hg, rfl⟩ := hm
    unfold resolveSimple at hr
    cases hrel : relative i (nameSimple f) with
    | none => rw [hrel] at hr; simp at hr
    | some r =>
      rw [hrel] at hr
      by_cases hs : startsWith pkg r
      · simp only [hs, if_true, Option.some.injEq] at hr
        subst hr
        cases hgp : g.parts with
        | nil => exact hne g hg hgp
        | cons a t =>
          have h1 := hf g hg a (by rw [hgp]; rfl)
          have : startsWith pkg (nameSimple g) = pkg.isPrefixOf a := by simp [nameSimple, hgp, startsWith]
          rw [this] at hs
          exact h1 (List.isPrefixOf_iff_prefix.mp hs)
      · simp [hs] at hr
  refine ⟨hdep, ?_⟩
  have hnil : ∀ m, adj m = [] := by
    intro m
    rw [List.eq_nil_iff_forall_not_mem]
    intro t ht
    obtain ⟨f, hf', h⟩ := hadj m t ht
    rw [hdep f hf'] at h
    simp at h
  obtain ⟨inv, -, -⟩ := search_spec adj false (files.map nameSimple) (by intro a b hb; rw [hnil a] at hb; simp at hb)
    (files.length + 1) (by simp)
  rw [List.eq_nil_iff_forall_not_mem]
  intro c hc
  obtain ⟨h0, -, -, he⟩ := (inv.sound c hc).1
  have h1 : ∃ a, c.head? = some a := by
    cases c with
    | nil => exact absurd rfl h0
    | cons a t => exact ⟨a, rfl⟩
  obtain ⟨a, ha⟩ := h1
  have := he a (c.getLast h0) ha (List.getLast?_eq_some_getLast h0)
  rw [hnil] at this
  simp at this

/-- core/a.py imports core/b.py and the other way round -/
example : deps [["core".toList, "a".toList], ["core".toList, "b".toList]] resolveSimple ["core".toList, "a".toList]
    ⟨["core".toList, "a".toList], [⟨["solarwindpy".toList, "core".toList, "b".toList], 0⟩, ⟨["b".toList], 1⟩]⟩ = [] := by decide
example : deps [[pkg, "core".toList, "a".toList], [pkg, "core".toList, "b".toList]]
    (resolveFixed pkg [[pkg, "core".toList, "a".toList], [pkg, "core".toList, "b".toList]]) [pkg, "core".toList, "a".toList]
    ⟨["core".toList, "a".toList], [⟨["b".toList], 1⟩]⟩ = [[pkg, "core".toList, "b".toList]] := by decide
/-- `from .a import …` in core/__init__.py looks for solarwindpy.a -/
example : relative ⟨["a".toList], 1⟩ (nameFixed pkg ⟨["core".toList, initW], []⟩) = some [pkg, "a".toList] := by decide

end Imp
end SW
