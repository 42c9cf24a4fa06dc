import Verif.Proofs.Steps
import Verif.Spec.Between
import Mathlib.Tactic.Positivity
import Mathlib.Tactic.Linarith
import Mathlib.Tactic.FieldSimp

/-! A continuous execution gives one in which the agents have a set of states during each step. -/

set_option autoImplicit false
set_option linter.unusedSectionVars false

namespace Verif.Proofs.Between

open Verif.Ver Verif.Ver.Spec Verif.Proofs.Ver Verif.Rect.Spec Verif.Rst.Spec Verif.Spec Verif.Proofs.Steps

variable {S G K V D R : Type} [Field K] [LinearOrder K] [DecidableEq V] [Field R] [LinearOrder R] [IsStrictOrderedRing R] [FloorRing R]

/-- The states during step `k`. -/
def toS (dt : ℚ) (φ : CPhase R K V) : SPhase K V :=
  ⟨φ.mode, fun a k y => ∃ t : R, (k : R) * (dt : R) ≤ t ∧ t ≤ ((k + 1 : Nat) : R) * (dt : R) ∧ y = φ.path a t⟩

/-- The number of whole steps in a time. -/
noncomputable def whole (dt : ℚ) (t : R) : Nat := ⌊t / (dt : R)⌋₊

def sflow (dt : ℚ) (flow : String → List V → (R → List K) → Prop) : Flow K V := fun a m x P =>
  ∃ ρ, flow a m ρ ∧ x = ρ 0 ∧ ∀ k y, P k y → ∃ t : R, (k : R) * (dt : R) ≤ t ∧ t ≤ ((k + 1 : Nat) : R) * (dt : R) ∧ y = ρ t

noncomputable def toEx (dt : ℚ) (ex : List (CPhase R K V × R)) : List (SPhase K V × Nat) := ex.map (fun x => (toS dt x.1, whole dt x.2))

theorem pos_cast {dt : ℚ} (h : 0 < dt) : (0 : R) < (dt : R) := by exact_mod_cast h

theorem whole_le {dt : ℚ} (h : 0 < dt) {t : R} (ht : 0 ≤ t) : (whole dt t : R) * (dt : R) ≤ t := by
  have hp := pos_cast (R := R) h
  have := Nat.floor_le (div_nonneg ht hp.le)
  unfold whole
  exact (le_div_iff₀ hp).1 this

theorem lt_whole {dt : ℚ} (h : 0 < dt) (t : R) : t < ((whole dt t + 1 : Nat) : R) * (dt : R) := by
  have hp := pos_cast (R := R) h
  have := Nat.lt_floor_add_one (t / (dt : R))
  unfold whole
  rw [Nat.cast_succ]
  exact (div_lt_iff₀ hp).1 this

theorem whole_mono {dt : ℚ} (h : 0 < dt) {s t : R} (hst : s ≤ t) : whole dt s ≤ whole dt t :=
  Nat.floor_mono (div_le_div_of_nonneg_right hst (pos_cast h).le)

theorem whole_mul {dt : ℚ} (h : 0 < dt) (n : Nat) : whole dt ((n : R) * (dt : R)) = n := by
  unfold whole
  rw [mul_div_cancel_right₀ _ (pos_cast (R := R) h).ne', Nat.floor_natCast]

variable {M : Meaning S G K V D} {w : World S K V} {b : Body S G K V D} {flow : String → List V → (R → List K) → Prop} {dt : ℚ} {N : Nat} {d : String → Nat}

theorem sound (h : CSoundTubes w flow dt N d) : Sound w (sflow dt flow) dt N d := by
  refine ⟨h.length, h.times, h.dims, ?_⟩
  rintro a m c k j s x P ⟨ρ, h1, rfl, h3⟩ hin hs y hy
  obtain ⟨t, t1, t2, rfl⟩ := h3 j y hy
  exact h.inside a m c k j s ρ h1 hin hs t t1 t2

theorem sel (hdt : 0 < dt) (φ : CPhase R K V) {k : Nat} {t : R} (h1 : (k : R) * (dt : R) ≤ t) (h2 : t ≤ ((k + 1 : Nat) : R) * (dt : R)) :
    Sel b (toS dt φ) k (fun a => φ.path a t) := fun _ _ => ⟨t, h1, h2, rfl⟩

/-- The controllers look at the beginning of every step of the phase. -/
theorem quiet {look : R → Prop} {g τ : R} {φ : CPhase R K V} (hdt : 0 < dt) (hτ : 0 ≤ τ) (hl : ∀ k : Nat, look (g + (k : R) * (dt : R)))
    (h : CQuiet M b look g φ τ) : Quiet M b (toS dt φ) (whole dt τ) := by
  intro k hk
  have hp := pos_cast (R := R) hdt
  have hkt : (k : R) * (dt : R) < τ := by
    refine lt_of_lt_of_le ?_ (whole_le hdt hτ)
    exact mul_lt_mul_of_pos_right (by exact_mod_cast hk) hp
  refine ⟨fun a => φ.path a ((k : R) * (dt : R)), sel hdt φ le_rfl ?_, ?_⟩
  · exact mul_le_mul_of_nonneg_right (by exact_mod_cast Nat.le_succ k) hp.le
  · intro a dl p hc hm
    exact h _ a dl p (mul_nonneg (Nat.cast_nonneg k) hp.le) hkt (hl k) hc hm

/-- The other agents go on, unless there are none, or the phase lasts for a whole number of steps. -/
theorem switches {τ : R} {φ φ' : CPhase R K V} (hdt : 0 < dt) (hτ : 0 ≤ τ)
    (ho : (∃ x, b.agents = [x]) ∨ (whole dt τ : R) * (dt : R) = τ) (h : CSwitches M w b flow φ τ φ') :
    Switches M w b (sflow dt flow) (toS dt φ) (whole dt τ) (toS dt φ') := by
  obtain ⟨a, dl, h1, h2, h3⟩ := h
  have hp := pos_cast (R := R) hdt
  refine ⟨a, dl, fun o => φ.path o τ, φ'.path a 0, sel hdt φ (whole_le hdt hτ) (lt_whole hdt τ).le, h1,
    ⟨φ'.path a, h2, rfl, fun k y hy => hy⟩, ?_⟩
  intro o hom hoa
  rcases ho with ⟨x, hx⟩ | hw
  · exfalso
    obtain ⟨_, _, _, ⟨q, _⟩, _⟩ := h1
    rw [hx, List.mem_singleton] at q hom
    rw [hom, ← q] at hoa
    exact hoa rfl
  · refine ⟨(h3 o.1 hoa).1, ?_⟩
    rintro k y ⟨t, t1, t2, rfl⟩
    have ht : 0 ≤ t := le_trans (mul_nonneg (Nat.cast_nonneg k) hp.le) t1
    refine ⟨τ + t, ?_, ?_, (h3 o.1 hoa).2 t ht⟩
    · push_cast; linarith [hw]
    · push_cast; push_cast at t2; linarith [hw]

/-- A phase that begins and ends at steps has a whole number of steps. -/
theorem whole_of_steps {g τ : R} (hdt : 0 < dt) (hτ : 0 ≤ τ) (hg : AtSteps dt g) (he : AtSteps dt (g + τ)) : (whole dt τ : R) * (dt : R) = τ := by
  obtain ⟨i, rfl⟩ := hg
  obtain ⟨j, hj⟩ := he
  have hp := pos_cast (R := R) hdt
  have hij : i ≤ j := by
    by_contra hc
    have : (j : R) * (dt : R) < (i : R) * (dt : R) := mul_lt_mul_of_pos_right (by exact_mod_cast Nat.lt_of_not_le hc) hp
    linarith
  have : τ = ((j - i : Nat) : R) * (dt : R) := by
    rw [Nat.cast_sub hij]; linarith
  rw [this, whole_mul hdt]

/-- Either the controllers look all the time and there is one agent, or the controllers look at the steps and the phase begins at one. -/
def Fits (b : Body S G K V D) (dt : ℚ) (look : R → Prop) (late g : R) : Prop :=
  (look = Always ∧ (∃ x, b.agents = [x]) ∧ late = (dt : R)) ∨ (look = AtSteps dt ∧ late = 0 ∧ AtSteps dt g)

theorem Fits.look {look : R → Prop} {late g : R} (h : Fits b dt look late g) (k : Nat) : look (g + (k : R) * (dt : R)) := by
  rcases h with ⟨rfl, _⟩ | ⟨rfl, _, i, rfl⟩
  · trivial
  · exact ⟨i + k, by push_cast; ring⟩

theorem Fits.next {look : R → Prop} {late g τ : R} (h : Fits b dt look late g) (hl : look (g + τ)) : Fits b dt look late (g + τ) := by
  rcases h with ⟨rfl, h2, h3⟩ | ⟨rfl, h2, _⟩
  · exact .inl ⟨rfl, h2, h3⟩
  · exact .inr ⟨rfl, h2, hl⟩

theorem Fits.which {look : R → Prop} {late g τ : R} (h : Fits b dt look late g) (hdt : 0 < dt) (hτ : 0 ≤ τ) (hl : look (g + τ)) :
    ((∃ x, b.agents = [x]) ∨ (whole dt τ : R) * (dt : R) = τ) ∧ τ ≤ (whole dt τ : R) * (dt : R) + late := by
  rcases h with ⟨rfl, h2, rfl⟩ | ⟨rfl, rfl, hg⟩
  · refine ⟨.inl h2, ?_⟩
    have := lt_whole hdt τ
    push_cast at this
    linarith
  · have := whole_of_steps hdt hτ hg hl
    exact ⟨.inr this, by rw [add_zero]; exact this.ge⟩

theorem exec_steps {look : R → Prop} {late g : R} (hdt : 0 < dt) {ex : List (CPhase R K V × R)} (h : CExecution M w b flow look g ex)
    (hf : Fits b dt look late g) :
    Execution M w b (sflow dt flow) (toEx dt ex) ∧ (∀ x ∈ ex.dropLast, x.2 ≤ (whole dt x.2 : R) * (dt : R) + late) ∧ ∀ x ∈ ex, 0 ≤ x.2 := by
  induction h with
  | last h1 h2 => exact ⟨.last (quiet hdt h1 hf.look h2), by simp, by simpa using h1⟩
  | @switch g φ τ φ' τ' rest h1 h2 h3 h4 _ ih =>
    obtain ⟨i1, i2, i3⟩ := ih (hf.next h3)
    obtain ⟨w1, w2⟩ := hf.which hdt h1 h3
    refine ⟨.switch (quiet hdt h1 hf.look h2) (switches hdt h1 w1 h4) i1, ?_, ?_⟩
    · intro x hx
      simp only [List.dropLast_cons_cons, List.mem_cons] at hx
      rcases hx with rfl | hx
      · exact w2
      · exact i2 x (by simpa using hx)
    · intro x hx
      rcases List.mem_cons.1 hx with rfl | hx
      · exact h1
      · exact i3 x hx

/-- From the steps to the times. -/
theorem tracks_times {A : Type} {agents : List String} {late : R} (hdt : 0 < dt) :
    ∀ (ex : List (CPhase R K V × R)) (us : List (Label (Body S G K V D) (Trace K) A)) (n : Nat) (g lag : R), Tracks agents dt N n (toEx dt ex) us →
    (∀ x ∈ ex.dropLast, x.2 ≤ (whole dt x.2 : R) * (dt : R) + late) → (∀ x ∈ ex, 0 ≤ x.2) →
    (n : R) * (dt : R) ≤ g → g ≤ (n : R) * (dt : R) + lag → CTracks agents dt N late g lag ex us := by
  have hp := pos_cast (R := R) hdt
  intro ex
  induction ex with
  | nil => intro us n g lag h _ _ _ _; cases h; exact .nil
  | cons x rest ih =>
    intro us n g lag h hl h0 hg1 hg2
    obtain ⟨φ, τ⟩ := x
    have hτ : 0 ≤ τ := h0 (φ, τ) (by simp)
    cases h with
    | @cons _ _ _ _ us u h1 h2 h3 =>
      refine .cons h1 ?_ ?_
      · intro t ht0 htτ hN a ha
        have e1 := whole_le hdt ht0
        have e2 := (lt_whole hdt t).le
        have hk := whole_mono hdt htτ
        have hlt : n + whole dt t < N := by
          have : ((n + whole dt t : Nat) : R) * (dt : R) < (N : R) * (dt : R) := by
            push_cast; rw [add_mul]; linarith
          exact_mod_cast lt_of_mul_lt_mul_right this hp.le
        obtain ⟨segs, q1, s, q2, q3, q4, q5⟩ := h2 (whole dt t) hk hlt a ha
        refine ⟨segs, q1, s, q2, ?_, ?_, q5 _ ⟨t, e1, e2, rfl⟩⟩
        · rw [q3]; push_cast; rw [add_mul]; linarith
        · rw [q4]; push_cast; push_cast at e2; linarith
      · cases rest with
        | nil => cases h3; exact .nil
        | cons y rest' =>
          refine ih us (n + whole dt τ) (g + τ) (lag + late) h3 (fun x hx => hl x ?_) (fun x hx => h0 x (by simp [hx])) ?_ ?_
          · simp only [List.dropLast_cons_cons, List.mem_cons]; exact .inr (by simpa using hx)
          · have := whole_le hdt hτ
            push_cast; rw [add_mul]; linarith
          · have := hl (φ, τ) (by simp)
            simp only at this
            push_cast; rw [add_mul]; linarith

/-- A state at a time is one during a step. -/
theorem occurs_step (hdt : 0 < dt) {ex : List (CPhase R K V × R)} {t : R} {s : Snap K V} (h : COccurs b ex t s) (h0 : ∀ x ∈ ex, 0 ≤ x.2) :
    ∃ k : Nat, Occurs b (toEx dt ex) k s ∧ (k : R) * (dt : R) ≤ t := by
  induction h with
  | @here φ τ rest t h1 h2 =>
    exact ⟨whole dt t, .here (whole_mono hdt h2) (sel hdt φ (whole_le hdt h1) (lt_whole hdt t).le), whole_le hdt h1⟩
  | @later φ τ rest t s _ ih =>
    obtain ⟨k, k1, k2⟩ := ih (fun x hx => h0 x (by simp [hx]))
    refine ⟨whole dt τ + k, .later k1, ?_⟩
    have := whole_le hdt (h0 (φ, τ) (by simp))
    simp only at this
    push_cast; rw [add_mul]; linarith

theorem sum_steps (hdt : 0 < dt) : ∀ (ex : List (CPhase R K V × R)), (∀ x ∈ ex, 0 ≤ x.2) →
    (((((toEx dt ex).dropLast.map Prod.snd).sum : Nat)) : R) * (dt : R) ≤ (ex.dropLast.map Prod.snd).sum
  | [], _ => by simp [toEx]
  | [x], _ => by simp [toEx]
  | x :: y :: rest, h0 => by
    have := sum_steps hdt (y :: rest) (fun z hz => h0 z (by simp [hz]))
    have e := whole_le hdt (h0 x (by simp))
    simp only [toEx, List.map_cons, List.dropLast_cons_cons, List.sum_cons] at this ⊢
    push_cast at this ⊢
    rw [add_mul]; linarith

end Verif.Proofs.Between
