/-
Reading back the files of a run with a floating-point type.
-/
import Verif.Proofs.ResumeAny
import Verif.Proofs.FloatNearest
import Verif.Model.RoundedText
import Verif.Spec.RunFl

set_option linter.unusedSectionVars false

namespace Madg
open Spec

section
variable {A K : Type} [DecidableEq A] [Arith K] [LT K] [DecidableLT K] [LE K] [DecidableLE K] [DecidableEq K] [Max K] [Min K] {sz : A → Int} {E : Env K} {o : RunOpts K}

theorem domain_none_any (h : 0 < o.nx) : o.domain E none =
    .ok ⟨o.nx, o.ny, o.nz, o.box.xbeg, o.box.xend, o.box.ybeg, o.box.zbeg⟩ := by
  unfold RunOpts.domain domainEnd
  rw [if_neg (by omega), if_neg (by omega)]

theorem timeOpts_any (hcfl : o.useCfl = false) (h : o.maxSteps < 2147483648) :
    o.timeOpts = ⟨o.t0, o.tfinal, o.dt0, false, o.maxSteps, 0, o.relTol, o.absTol⟩ := by
  unfold RunOpts.timeOpts
  rw [hcfl, maxSteps_small _ h]

theorem ic3_none_any {G : Geom3} (hG : G.Ok) {sol : A} (hs : sz sol = G.g.size) (st : StateArr A) (m : Mem A K) :
    ∃ m1, CDet sz (icOf E o none G.interior st sol) m () m1 ∧
      (∀ c, In3 G.g.ni G.g.nj G.g.nk c → m1 sol (G.g.at3 c.1 c.2.1 c.2.2) = initialAny3 E.draw o.par.m G.g.ni G.g.nj G.g.nk c) ∧
      ∀ b, b ≠ sol → m1 b = m b := by
  obtain ⟨m1, d, v, -, f⟩ := icRandom_detA G.interior hG.nodup_int sol (fun n hn => hG.int_inB hs hn) o.par.m E.draw m
  refine ⟨m1, CDet.ofHost d, fun c hc => ?_, f⟩
  have hl := hG.length_int
  have hlt : ((c.1 * G.g.nj + c.2.1) * G.g.nk + c.2.2).toNat < G.interior.length := idx3_lt hl hc.1 hc.2.1 hc.2.2
  have := v _ hlt
  rw [interior3_getD hG hc] at this
  rw [this]
  unfold initialAny3
  rw [← hl, Int.toNat_natCast]

end

section
variable {F : FloatFmt} {io : RealText (Fl F.round)}

theorem Fl.le_def {x y : Fl F.round} : x ≤ y ↔ x.val ≤ y.val := Iff.rfl

theorem Fl.eq_of_val {x y : Fl F.round} (h : x.val = y.val) : x = y := by cases x; cases y; congr

/-- Reading the domain of a file whose points were computed with rounding. -/
theorem domain_vts3_fl (hp : 1 ≤ F.prec) (hio : ∀ x : Fl F.round, IsFloat F x.val → Exact io x) {nx ny nz : Int}
    (hx : 1 ≤ nx ∧ nx < 2147483648) (hy : 1 ≤ ny ∧ ny < 2147483648) (hz : 1 ≤ nz ∧ nz < 2147483648) {xb yb zb h : Fl F.round}
    (hxb : IsFloat F xb.val) (hyb : IsFloat F yb.val) (hzb : IsFloat F zb.val) (hh : 0 ≤ h.val)
    (u : Int × Int × Int → Fl F.round) (s : Status (Fl F.round)) :
    getCartesianDomain io (vts3 io xb yb zb h nx ny nz u s) = .ok ⟨nx, ny, nz, xb, xb + h * (nx : Fl F.round), yb, zb⟩ := by
  have hb : ∀ c ∈ triples (nx + 1) (ny + 1) (nz + 1), (0 ≤ c.1 ∧ c.1 ≤ nx) ∧ (0 ≤ c.2.1 ∧ c.2.1 ≤ ny) ∧ (0 ≤ c.2.2 ∧ c.2.2 ≤ nz) := by
    intro c hc
    obtain ⟨h1, h2, h3⟩ := mem_triples.1 hc
    omega
  have h0 : ((0, 0, 0) : Int × Int × Int) ∈ triples (nx + 1) (ny + 1) (nz + 1) := mem_triples.2 ⟨by dsimp only; omega, by dsimp only; omega, by dsimp only; omega⟩
  have hN : ((nx, 0, 0) : Int × Int × Int) ∈ triples (nx + 1) (ny + 1) (nz + 1) := mem_triples.2 ⟨by dsimp only; omega, by dsimp only; omega, by dsimp only; omega⟩
  have mono : ∀ (b : Fl F.round) (i j : Int), i ≤ j → b + h * (i : Fl F.round) ≤ b + h * (j : Fl F.round) := by
    intro b i j hij
    rw [Fl.le_def]
    show F.round (b.val + F.round (h.val * F.round (i : ℚ))) ≤ F.round (b.val + F.round (h.val * F.round (j : ℚ)))
    have h1 : F.round (i : ℚ) ≤ F.round (j : ℚ) := F.round_mono hp (by exact_mod_cast hij)
    have h2 : F.round (h.val * F.round (i : ℚ)) ≤ F.round (h.val * F.round (j : ℚ)) :=
      F.round_mono hp (mul_le_mul_of_nonneg_left h1 hh)
    exact F.round_mono hp (by linarith)
  have start : ∀ b : Fl F.round, IsFloat F b.val → b + h * ((0 : Int) : Fl F.round) = b := by
    intro b hb
    apply Fl.eq_of_val
    show F.round (b.val + F.round (h.val * F.round ((0 : Int) : ℚ))) = b.val
    rw [Int.cast_zero, F.round_zero, mul_zero, F.round_zero, add_zero, F.round_float hb]
  have ex : ∀ (b : Fl F.round) (i : Int), Exact io (b + h * (i : Fl F.round)) := fun b i => hio _ (F.round_isFloat hp _)
  refine getCartesianDomain_ok io _ ⟨by omega, hx.2⟩ ⟨by omega, hy.2⟩ ⟨by omega, hz.2⟩ rfl
    (triples (nx + 1) (ny + 1) (nz + 1)) _ _ _ (fun c => xb + h * (c.1 : Fl F.round)) (fun c => yb + h * (c.2.1 : Fl F.round))
    (fun c => zb + h * (c.2.2 : Fl F.round)) (vts3_points io xb yb zb h nx ny nz u s) ?_ ?_ ?_ ?_ ?_ ?_ ?_
  · rw [triples_eq, List.length_map, length_box3]
    push_cast
    rw [Int.toNat_of_nonneg (by omega), Int.toNat_of_nonneg (by omega), Int.toNat_of_nonneg (by omega)]
    ring
  · intro c hc
    exact ⟨(ex _ _).1, (ex _ _).1, (ex _ _).1⟩
  · intro c hc
    exact ⟨(ex _ _).2, (ex _ _).2, (ex _ _).2⟩
  · refine ⟨⟨_, h0, start xb hxb⟩, fun c hc => ?_⟩
    have := mono xb 0 c.1 (hb c hc).1.1
    rwa [start xb hxb] at this
  · exact ⟨⟨_, hN, rfl⟩, fun c hc => mono xb c.1 nx (hb c hc).1.2⟩
  · refine ⟨⟨_, h0, start yb hyb⟩, fun c hc => ?_⟩
    have := mono yb 0 c.2.1 (hb c hc).2.1.1
    rwa [start yb hyb] at this
  · refine ⟨⟨_, h0, start zb hzb⟩, fun c hc => ?_⟩
    have := mono zb 0 c.2.2 (hb c hc).2.2.1
    rwa [start zb hzb] at this

/-- Every number of the format is printed and read without loss. -/
theorem doubleText_fl_exact (x : Fl binary64.round) (hx : IsFloat binary64 x.val) : Exact doubleText.fl x := by
  obtain ⟨h1, h2⟩ := C60_double_exact x.val hx
  refine ⟨h1, ?_⟩
  show (doubleText.parse (doubleText.full x.val)).map Fl.mk = some x
  rw [h2]
  rfl

theorem shortExact_fl {rnd : ℚ → ℚ} {x : Fl rnd} (h : ShortExact doubleText x.val) : ShortExact doubleText.fl x := by
  obtain ⟨h1, h2⟩ := h
  refine ⟨h1, ?_⟩
  show (doubleText.parse (doubleText.short x.val)).map Fl.mk = some x
  rw [h2]
  rfl

end

end Madg
