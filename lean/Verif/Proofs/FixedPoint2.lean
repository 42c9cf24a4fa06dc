import Verif.Proofs.FixedPoint

/-! Numbering of modes, composition of agents, formulas. -/

set_option autoImplicit false
set_option linter.unusedSectionVars false

namespace Verif.Proofs.Fix

open Verif.Spec Verif.Fix Verif.Fix.Spec Verif.ATree

variable {K : Type} [Field K] [LinearOrder K]

/-! ### Numbers of modes -/

/-- Different modes have different numbers, below the next one. -/
structure NumOk (d : Enum) : Prop where
  below : ∃ k, Dict.get? d "_index" = some k ∧ ∀ m v, m ≠ "_index" → Dict.get? d m = some v → v < k
  inj : ∀ m m' v, m ≠ "_index" → m' ≠ "_index" → Dict.get? d m = some v → Dict.get? d m' = some v → m = m'

theorem numberModes_spec : ∀ (ms : List String) (d : Enum), NumOk d → "_index" ∉ ms →
    NumOk (numberModes d ms) ∧ (∀ m v, m ≠ "_index" → Dict.get? d m = some v → Dict.get? (numberModes d ms) m = some v) ∧
    ∀ m ∈ ms, ∃ v, Dict.get? (numberModes d ms) m = some v := by
  intro ms
  induction ms with
  | nil => intro d h _; exact ⟨h, fun m v _ hv => hv, by simp⟩
  | cons m ms ih =>
    intro d h hi
    rw [List.mem_cons, not_or] at hi
    have hm : m ≠ "_index" := fun e => hi.1 e.symm
    obtain ⟨k, hk, hb⟩ := h.below
    unfold numberModes
    rw [List.foldl_cons]
    by_cases hmem : Dict.mem d m = true
    · rw [if_pos hmem]
      obtain ⟨h1, h2, h3⟩ := ih d h hi.2
      refine ⟨h1, h2, ?_⟩
      intro m' hm'
      rcases List.mem_cons.1 hm' with rfl | hm'
      · rw [Dict.mem_iff] at hmem
        obtain ⟨v, hv⟩ := Option.isSome_iff_exists.1 hmem
        exact ⟨v, h2 m' v hm hv⟩
      · exact h3 m' hm'
    · rw [if_neg hmem, hk, Option.getD_some]
      have hnone : Dict.get? d m = none := by
        rw [Dict.mem_iff] at hmem
        cases hx : Dict.get? d m with
        | none => rfl
        | some v => rw [hx] at hmem; simp at hmem
      have g1 : ∀ x, x ≠ "_index" → Dict.get? (Dict.set (Dict.set d m k) "_index" (k + 1)) x = if x = m then some k else Dict.get? d x := by
        intro x hx
        rw [Dict.get?_set_ne _ _ _ _ hx.symm]
        by_cases he : x = m
        · subst he; rw [if_pos rfl, Dict.get?_set_self]
        · rw [if_neg he, Dict.get?_set_ne _ _ _ _ (Ne.symm he)]
      have hd : NumOk (Dict.set (Dict.set d m k) "_index" (k + 1)) := by
        refine ⟨⟨k + 1, Dict.get?_set_self _ _ _, ?_⟩, ?_⟩
        · intro x v hx hv
          rw [g1 x hx] at hv
          by_cases he : x = m
          · rw [if_pos he] at hv; injection hv with hv; omega
          · rw [if_neg he] at hv; have := hb x v hx hv; omega
        · intro x y v hx hy hxv hyv
          rw [g1 x hx] at hxv
          rw [g1 y hy] at hyv
          by_cases h1 : x = m <;> by_cases h2 : y = m
          · rw [h1, h2]
          · rw [if_pos h1] at hxv; rw [if_neg h2] at hyv
            injection hxv with hxv
            have := hb y v hy hyv; omega
          · rw [if_neg h1] at hxv; rw [if_pos h2] at hyv
            injection hyv with hyv
            have := hb x v hx hxv; omega
          · rw [if_neg h1] at hxv; rw [if_neg h2] at hyv
            exact h.inj x y v hx hy hxv hyv
      obtain ⟨h1, h2, h3⟩ := ih _ hd hi.2
      refine ⟨h1, ?_, ?_⟩
      · intro x v hx hv
        refine h2 x v hx ?_
        rw [g1 x hx, if_neg]
        · exact hv
        · rintro rfl; rw [hnone] at hv; cases hv
      · intro m' hm'
        rcases List.mem_cons.1 hm' with rfl | hm'
        · exact ⟨k, h2 m' k hm (by rw [g1 m' hm, if_pos rfl])⟩
        · exact h3 m' hm'

def modes (n : FNode K) (a : String) : List String := (Dict.get? n.mode a).getD []

def numOf (E : Dict String Enum) (a : String) : Enum := (Dict.get? E a).getD []

/-- Numbers of the modes of an agent in a node. -/
def nums (E : Dict String Enum) (n : FNode K) (a : String) : List K := (modes n a).map (fun m => (((Dict.get? (numOf E a) m).getD 0 : Nat) : K))

def EnumOk (agents : List String) (E : Dict String Enum) : Prop := ∀ a ∈ agents, ∃ d, Dict.get? E a = some d ∧ NumOk d

def Later (agents : List String) (E E' : Dict String Enum) : Prop :=
  ∀ a ∈ agents, ∀ m v, m ≠ "_index" → Dict.get? (numOf E a) m = some v → Dict.get? (numOf E' a) m = some v

theorem Later.trans {agents : List String} {E E' E'' : Dict String Enum} (h : Later agents E E') (h' : Later agents E' E'') : Later agents E E'' :=
  fun a ha m v hm hv => h' a ha m v hm (h a ha m v hm hv)

/-- The agent has a mode in the node, and all modes of the node are numbered. -/
def Numbered (E : Dict String Enum) (n : FNode K) (a : String) : Prop := ∀ m ∈ modes n a, m ≠ "_index" ∧ ∃ v, Dict.get? (numOf E a) m = some v

theorem nums_later {agents : List String} {E E' : Dict String Enum} (h : Later agents E E') {n : FNode K} {a : String} (ha : a ∈ agents) (hn : Numbered E n a) :
    nums E' n a = nums E n a := by
  unfold nums
  apply List.map_congr_left
  intro m hm
  obtain ⟨hi, v, hv⟩ := hn m hm
  rw [hv, h a ha m v hi hv]

theorem Numbered.later {agents : List String} {E E' : Dict String Enum} {n : FNode K} {a : String} (hn : Numbered E n a) (h : Later agents E E') (ha : a ∈ agents) :
    Numbered E' n a := fun m hm => ⟨(hn m hm).1, (hn m hm).2.choose, h a ha m _ (hn m hm).1 (hn m hm).2.choose_spec⟩

/-- The enumerations after a node, without the traces. -/
def enumStep (n : FNode K) (E : Dict String Enum) (a : String) : Dict String Enum := Dict.set E a (numberModes (numOf E a) (modes n a))

/-- The conditions on a node. -/
structure NodeOk (agents : List String) (dim mdim : String → Nat) (n : FNode K) : Prop where
  trace : ∀ a ∈ agents, ∃ rows, Dict.get? n.trace a = some rows ∧ 2 ≤ rows.length ∧ 2 ∣ rows.length ∧ (∀ r ∈ rows, r.2.length = dim a) ∧
    (∀ p ∈ pairs rows, p.1.1 < p.2.1) ∧ (pairs rows).Pairwise (fun p q => p.1.1 ≤ q.1.1 ∧ p.2.1 ≤ q.2.1)
  mode : ∀ a ∈ agents, ∃ ms, Dict.get? n.mode a = some ms ∧ ms.length = mdim a ∧ "_index" ∉ ms
  aligned : ∀ a ∈ agents, ∀ b ∈ agents, (rects n a).map (fun r => (r.1.1, r.2.1)) = (rects n b).map (fun r => (r.1.1, r.2.1))

variable {agents : List String} {dim mdim : String → Nat}

theorem NodeOk.select {n : FNode K} (h : NodeOk agents dim mdim n) {a : String} (ha : a ∈ agents) (sel : Sel K) :
    select sel n.trace a = .ok (selP sel (rects n a)) := by
  obtain ⟨rows, h1, h2, h3, -, h5, h6⟩ := h.trace a ha
  rw [select_eq h1 h2 h3 h5 h6]
  unfold rects
  rw [h1, Option.getD_some]

theorem mem_pairs {α : Type} : ∀ {l : List α} {p : α × α}, p ∈ pairs l → p.1 ∈ l ∧ p.2 ∈ l
  | [], p, h => by simp [pairs] at h
  | [a], p, h => by simp [pairs] at h
  | a :: b :: l, p, h => by
    rw [pairs] at h
    rcases List.mem_cons.1 h with rfl | h
    · simp
    · have := mem_pairs h
      exact ⟨by simp [this.1], by simp [this.2]⟩

theorem NodeOk.dims {n : FNode K} (h : NodeOk agents dim mdim n) {a : String} (ha : a ∈ agents) {r : Row K × Row K} (hr : r ∈ rects n a) :
    r.1.2.length = dim a ∧ r.2.2.length = dim a := by
  obtain ⟨rows, h1, -, -, h4, -, -⟩ := h.trace a ha
  unfold rects at hr
  rw [h1, Option.getD_some] at hr
  exact ⟨h4 _ (mem_pairs hr).1, h4 _ (mem_pairs hr).2⟩

/-- The vertices of one agent in one node. -/
def verts (E : Dict String Enum) (sel : Sel K) (n : FNode K) (a : String) : List (List K × List K) :=
  (selP sel (rects n a)).map (fun r => (r.1.2 ++ nums E n a, r.2.2 ++ nums E n a))

theorem agentLoop {n : FNode K} (hn : NodeOk agents dim mdim n) (sel : Sel K) : ∀ (l : List String) (E : Dict String Enum) (acc : List (List (List K))),
    l.Nodup → (∀ a ∈ l, a ∈ agents) → EnumOk agents E →
    l.foldlM (agentStep sel n) (E, acc) = .ok (l.foldl (enumStep n) E, acc ++ l.map (fun a => flat (verts (l.foldl (enumStep n) E) sel n a))) ∧
    EnumOk agents (l.foldl (enumStep n) E) ∧ Later agents E (l.foldl (enumStep n) E) ∧ (∀ a ∈ l, Numbered (l.foldl (enumStep n) E) n a) ∧
    (∀ a, a ∉ l → Dict.get? (l.foldl (enumStep n) E) a = Dict.get? E a) := by
  intro l
  induction l with
  | nil => intro E acc _ _ hE; exact ⟨by simp [pure, Except.pure], hE, fun a _ m v _ h => h, by simp, fun _ _ => rfl⟩
  | cons a l ih =>
    intro E acc hnd hsub hE
    rw [List.nodup_cons] at hnd
    have haa := hsub a (by simp)
    obtain ⟨d, hd, hok⟩ := hE a haa
    obtain ⟨ms, hms, -, hi⟩ := hn.mode a haa
    have hmodes : modes n a = ms := by unfold modes; rw [hms]; rfl
    obtain ⟨s1, s2, s3⟩ := numberModes_spec ms d hok hi
    have hnum : numOf E a = d := by unfold numOf; rw [hd]; rfl
    have hE1 : enumStep n E a = Dict.set E a (numberModes d ms) := by unfold enumStep; rw [hnum, hmodes]
    have hget : ∀ b, Dict.get? (enumStep n E a) b = if b = a then some (numberModes d ms) else Dict.get? E b := by
      intro b
      rw [hE1]
      by_cases hb : b = a
      · subst hb; rw [if_pos rfl, Dict.get?_set_self]
      · rw [if_neg hb, Dict.get?_set_ne _ _ _ _ (Ne.symm hb)]
    have hEok : EnumOk agents (enumStep n E a) := by
      intro b hb
      rw [hget]
      by_cases he : b = a
      · rw [if_pos he]; exact ⟨_, rfl, s1⟩
      · rw [if_neg he]; exact hE b hb
    have hlater : Later agents E (enumStep n E a) := by
      intro b hb m v hm hv
      unfold numOf at hv ⊢
      rw [hget]
      by_cases he : b = a
      · subst he
        rw [hd] at hv
        rw [if_pos rfl]
        exact s2 m v hm hv
      · rw [if_neg he]; exact hv
    obtain ⟨i1, i2, i3, i4, i5⟩ := ih (enumStep n E a)
      (acc ++ [(selP sel (rects n a)).flatMap (fun r => [withModes (numberModes d ms) ms r.1, withModes (numberModes d ms) ms r.2])])
      hnd.2 (fun b hb => hsub b (List.mem_cons_of_mem _ hb)) hEok
    have hfa : Dict.get? (l.foldl (enumStep n) (enumStep n E a)) a = some (numberModes d ms) := by rw [i5 a hnd.1, hget, if_pos rfl]
    rw [List.foldl_cons]
    refine ⟨?_, i2, hlater.trans i3, ?_, ?_⟩
    · refine (foldlM_cons_ok _ _ _ _ _).2 ⟨_, ?_, i1.trans ?_⟩
      · unfold agentStep
        rw [hms]
        simp only
        rw [hd]
        simp only
        rw [hn.select haa sel]
        show Except.ok _ = _
        rw [hE1]
      · congr 2
        rw [List.append_assoc, List.map_cons, List.singleton_append]
        congr 2
        unfold verts flat
        rw [List.flatMap_map]
        apply List.flatMap_congr
        intro r _
        have : ∀ r : Row K, withModes (numberModes d ms) ms r = r.2 ++ nums (l.foldl (enumStep n) (enumStep n E a)) n a := by
          intro r
          unfold withModes nums numOf
          rw [hfa, hmodes]
          rfl
        rw [this, this]
    · intro b hb
      rcases List.mem_cons.1 hb with rfl | hb
      · intro m hm
        rw [hmodes] at hm
        obtain ⟨v, hv⟩ := s3 m hm
        refine ⟨fun e => hi (e ▸ hm), v, ?_⟩
        unfold numOf
        rw [hfa]; exact hv
      · exact i4 b hb
    · intro b hb
      rw [List.mem_cons, not_or] at hb
      rw [i5 b hb.2, hget, if_neg hb.1]

/-! ### Composition of the agents -/

/-- The composed rectangles: `i`-th pairs of all agents, concatenated. -/
def composed (L : Nat) (vs : List (List (List K × List K))) : List (List K × List K) :=
  (List.range L).map (fun i => (vs.flatMap (fun v => ((v[i]?).getD ([], [])).1), vs.flatMap (fun v => ((v[i]?).getD ([], [])).2)))

theorem composed_get {L : Nat} {vs : List (List (List K × List K))} {i : Nat} (h : i < L) :
    (composed L vs)[i]? = some (vs.flatMap (fun v => ((v[i]?).getD ([], [])).1), vs.flatMap (fun v => ((v[i]?).getD ([], [])).2)) := by
  unfold composed
  rw [List.getElem?_map, List.getElem?_range h]
  rfl

theorem composed_length (L : Nat) (vs : List (List (List K × List K))) : (composed L vs).length = L := by simp [composed]

theorem zipWith_flat {L : Nat} {vs : List (List (List K × List K))} {v : List (List K × List K)} (hv : v.length = L) :
    List.zipWith (· ++ ·) (flat (composed L vs)) (flat v) = flat (composed L (vs ++ [v])) := by
  have key : ∀ (P Q : List (List K × List K)), P.length = Q.length →
      List.zipWith (· ++ ·) (flat P) (flat Q) = flat (List.zipWith (fun p q => (p.1 ++ q.1, p.2 ++ q.2)) P Q) := by
    intro P
    induction P with
    | nil => intro Q _; rfl
    | cons p P ih =>
      intro Q h
      cases Q with
      | nil => simp at h
      | cons q Q =>
        simp only [List.zipWith_cons_cons, flat_cons]
        rw [ih Q (by simpa using h)]
  rw [key _ _ (by rw [composed_length, hv])]
  congr 1
  apply List.ext_getElem?
  intro i
  by_cases hi : i < L
  · rw [composed_get hi, List.getElem?_zipWith, composed_get hi]
    have : i < v.length := by omega
    simp [this]
  · rw [List.getElem?_eq_none (by rw [List.length_zipWith, composed_length, hv]; omega), List.getElem?_eq_none (by rw [composed_length]; omega)]

theorem compose_zero : ∀ (vs : List (List (List K × List K))), (∀ v ∈ vs, v.length = 0) → (vs.map flat).foldlM compose (none : Option (List (List K))) = .ok none
  | [], _ => rfl
  | v :: vs, h => by
    have : v = [] := List.eq_nil_of_length_eq_zero (h v (by simp))
    subst this
    exact (foldlM_cons_ok _ _ _ _ _).2 ⟨none, rfl, compose_zero vs (fun w hw => h w (List.mem_cons_of_mem _ hw))⟩

theorem compose_some {L : Nat} (hL : 0 < L) : ∀ (vs us : List (List (List K × List K))), (∀ v ∈ vs, v.length = L) →
    (vs.map flat).foldlM compose (some (flat (composed L us))) = .ok (some (flat (composed L (us ++ vs))))
  | [], us, _ => by simp [pure, Except.pure]
  | v :: vs, us, h => by
    have hv := h v (by simp)
    refine (foldlM_cons_ok _ _ _ _ _).2 ⟨some (flat (composed L (us ++ [v]))), ?_, ?_⟩
    · have hne : flat v ≠ [] := by
        intro e
        have := flat_length v
        rw [e, hv, List.length_nil] at this; omega
      have hl : (flat v).length = (flat (composed L us)).length := by rw [flat_length, flat_length, composed_length, hv]
      unfold compose
      rw [if_neg hne, Option.getD_some, if_pos hl.le, hl, List.drop_length, List.append_nil, zipWith_flat hv]
    · have := compose_some hL vs (us ++ [v]) (fun w hw => h w (List.mem_cons_of_mem _ hw))
      rwa [List.append_assoc, List.singleton_append] at this

theorem compose_all {L : Nat} (hL : 0 < L) (vs : List (List (List K × List K))) (hne : vs ≠ []) (h : ∀ v ∈ vs, v.length = L) :
    (vs.map flat).foldlM compose (none : Option (List (List K))) = .ok (some (flat (composed L vs))) := by
  cases vs with
  | nil => exact absurd rfl hne
  | cons v vs =>
    have hv := h v (by simp)
    have h0 : flat (composed (K := K) L []) = List.replicate (flat v).length [] := by
      rw [flat_length, hv]
      refine List.eq_replicate_iff.2 ⟨by rw [flat_length, composed_length], ?_⟩
      intro b hb
      unfold flat composed at hb
      simp at hb
      exact hb.2
    have hne' : flat v ≠ [] := by
      intro e
      have := flat_length v
      rw [e, hv, List.length_nil] at this; omega
    refine (foldlM_cons_ok _ _ _ _ _).2 ⟨some (flat (composed L [v])), ?_, compose_some hL vs [v] (fun w hw => h w (List.mem_cons_of_mem _ hw))⟩
    have hl : (flat v).length = (flat (composed (K := K) L [])).length := by rw [flat_length, flat_length, composed_length, hv]
    unfold compose
    rw [if_neg hne', Option.getD_none, ← h0, if_pos hl.le, hl, List.drop_length, List.append_nil, zipWith_flat hv]
    rfl

end Verif.Proofs.Fix
