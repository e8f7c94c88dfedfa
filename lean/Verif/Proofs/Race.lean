/-
Exhibiting particular schedules of a parallel loop.
-/
import Verif.Proofs.BC3

set_option linter.unusedSectionVars false

namespace Madg
open Relation
variable {A K : Type} [DecidableEq A]

theorem reach_one {sz : A → Int} {R W : A → Int → Prop} (pre post : Pool A K) {p : Prog A K Unit}
    (hp : p.Foot sz R W) (m : Mem A K) :
    ReflTransGen (Step sz) (pre ++ p :: post, m) (pre ++ .pure () :: post, p.exec m) := by
  induction p generalizing m with
  | pure x => exact .refl
  | load a i k ih => exact .head (.load pre post a i k m hp.1) (ih _ (hp.2.2 _) m)
  | store a i v k ih => exact .head (.store pre post a i v k m hp.1) (ih hp.2.2 _)
  | fail e => exact hp.elim

theorem reach_finish {sz : A → Int} {R W : A → Int → Prop} (pre ps : Pool A K)
    (hpre : ∀ q ∈ pre, q = .pure ()) (hps : ∀ p ∈ ps, p.Foot sz R W) (m : Mem A K) :
    ∃ qs m', ReflTransGen (Step sz) (pre ++ ps, m) (qs, m') ∧ (∀ q ∈ qs, q = .pure ()) ∧
      ∀ a n, ¬ W a n → m' a n = m a n := by
  induction ps generalizing pre m with
  | nil => exact ⟨_, m, .refl, by simpa using hpre, fun _ _ _ => rfl⟩
  | cons p ps ih =>
    have hp := hps p (by simp)
    obtain ⟨qs, m', h, hd, hf⟩ := ih (pre ++ [.pure ()]) (by
      intro q hq; rcases List.mem_append.1 hq with h | h
      · exact hpre q h
      · simpa using h) (fun q hq => hps q (by simp [hq])) (p.exec m)
    refine ⟨qs, m', (reach_one pre ps hp m).trans (by simpa using h), hd, fun a n hn => ?_⟩
    rw [hf a n hn, Prog.exec_frame hp _ hn]

theorem reach_map_one {C : Type} [DecidableEq C] {sz : A → Int} {R W : A → Int → Prop} {cs : List C}
    (hnd : cs.Nodup) {b : C → Prog A K Unit} {c : C} (hc : c ∈ cs) (hp : (b c).Foot sz R W) (m : Mem A K) :
    ReflTransGen (Step sz) (cs.map b, m) (cs.map (Function.update b c (.pure ())), (b c).exec m) := by
  obtain ⟨l1, l2, rfl⟩ := List.append_of_mem hc
  have hn := List.nodup_append.1 hnd
  have h1 : c ∉ l1 := fun h => (hn.2.2 c h c (by simp)) rfl
  have h2 : c ∉ l2 := (List.nodup_cons.1 hn.2.1).1
  have e1 : l1.map (Function.update b c (.pure ())) = l1.map b :=
    List.map_congr_left fun x hx => Function.update_of_ne (by rintro rfl; exact h1 hx) _ _
  have e2 : l2.map (Function.update b c (.pure ())) = l2.map b :=
    List.map_congr_left fun x hx => Function.update_of_ne (by rintro rfl; exact h2 hx) _ _
  rw [List.map_append, List.map_append, List.map_cons, List.map_cons, e1, e2, Function.update_self]
  exact reach_one _ _ hp m

/-- A halo cell `c` whose donor `d` is itself a halo cell makes the periodic fill schedule dependent. -/
theorem periodic_race {G : Geom3} (hG : G.Ok) {sz : A → Int} {a : A} (hs : sz a = G.g.size)
    {c d : Int × Int × Int} (hc : c ∈ G.g.haloCells) (hd : d ∈ G.g.haloCells)
    (hcd : d = (Grid3.donor1 G.g.ni c.1, Grid3.donor1 G.g.nj c.2.1, Grid3.donor1 G.g.nk c.2.2))
    (hne : c ≠ d) (hdi : G.g.Int3 (Grid3.donor1 G.g.ni d.1) (Grid3.donor1 G.g.nj d.2.1)
      (Grid3.donor1 G.g.nk d.2.2))
    (hin : ∀ e ∈ G.g.haloCells, G.g.Pad (Grid3.donor1 G.g.ni e.1) (Grid3.donor1 G.g.nj e.2.1)
      (Grid3.donor1 G.g.nk e.2.2))
    (x y : K) (hxy : x ≠ y) :
    ∃ m m1 m2 : Mem A K, HostOut sz (G.applyPeriodic a) m (.ok m1) ∧
      HostOut sz (G.applyPeriodic a) m (.ok m2) ∧ m1 a ≠ m2 a ∧ HostOut sz (G.applyPeriodic a) m (.fault .dataRace) := by
  rw [periodic_pool hG]
  have hok := hG.ok
  set g := G.g
  let dn : Int × Int × Int → Int := fun c =>
    g.at3 (Grid3.donor1 g.ni c.1) (Grid3.donor1 g.nj c.2.1) (Grid3.donor1 g.nk c.2.2)
  let b : Int × Int × Int → Prog A K Unit := fun c =>
    .load a (dn c) fun v => .store a (g.at3 c.1 c.2.1 c.2.2) v (.pure ())
  have hb : ∀ e ∈ g.haloCells, (b e).Foot sz (fun _ _ => True) (fun a' n => g.loc a e = (a', n)) := by
    intro e he
    refine ⟨?_, trivial, fun v => ⟨?_, rfl, trivial⟩⟩
    · rw [InB, hs]; exact Grid3.at3_bounds (hin e he)
    · rw [InB, hs]; exact Grid3.at3_bounds (Grid3.mem_haloCells.1 he).1
  let m : Mem A K := fun _ n => if n = dn d then x else y
  have hnd := Grid3.nodup_haloCells g
  have hcp := (Grid3.mem_haloCells.1 hc).1
  -- finishing never touches `c` again
  have hfin : ∀ (b' : Int × Int × Int → Prog A K Unit) (m' : Mem A K), b' c = .pure () →
      (∀ e ∈ g.haloCells, b' e = b e ∨ b' e = .pure ()) →
      ∃ qs m'', ReflTransGen (Step sz) (g.haloCells.map b', m') (qs, m'') ∧ (∀ q ∈ qs, q = .pure ()) ∧
        m'' a (g.at3 c.1 c.2.1 c.2.2) = m' a (g.at3 c.1 c.2.1 c.2.2) := by
    intro b' m' hbc hbe
    obtain ⟨qs, m'', h1, h2, h3⟩ := reach_finish (sz := sz) (R := fun _ _ => True)
      (W := fun a' n => ∃ e ∈ g.haloCells, e ≠ c ∧ g.loc a e = (a', n)) [] (g.haloCells.map b') (by simp) (by
        intro p hp
        obtain ⟨e, he, rfl⟩ := List.mem_map.1 hp
        rcases hbe e he with h | h
        · by_cases hec : e = c
          · subst hec; rw [hbc]; trivial
          · rw [h]
            exact (hb e he).mono (fun _ _ _ => trivial) fun a' n hn => ⟨e, he, hec, hn⟩
        · rw [h]; trivial) m'
    refine ⟨qs, m'', h1, h2, h3 _ _ ?_⟩
    rintro ⟨e, he, hec, hl⟩
    exact hec (Grid3.loc_inj (a := a) (Grid3.mem_haloCells.1 he).1 hcp hl)
  have hbd := hb d hd
  -- schedule 1: `c` first
  obtain ⟨q1, m1, r1, d1, v1⟩ := hfin (Function.update b c (.pure ())) ((b c).exec m)
    (Function.update_self _ _ _) (fun e _ => by
      by_cases h : e = c
      · right; rw [h, Function.update_self]
      · left; rw [Function.update_of_ne h])
  -- schedule 2: `d`, then `c`
  have hcb : Function.update b d (.pure ()) c = b c := Function.update_of_ne hne _ _
  obtain ⟨q2, m2, r2, d2, v2⟩ := hfin (Function.update (Function.update b d (.pure ())) c (.pure ()))
    ((b c).exec ((b d).exec m)) (Function.update_self _ _ _) (fun e _ => by
      by_cases h : e = c
      · right; rw [h, Function.update_self]
      · rw [Function.update_of_ne h]
        by_cases h' : e = d
        · right; rw [h', Function.update_self]
        · left; rw [Function.update_of_ne h'])
  have s2 := reach_map_one (sz := sz) hnd hc (b := Function.update b d (.pure ()))
    (by rw [hcb]; exact hb c hc) ((b d).exec m)
  rw [hcb] at s2
  refine ⟨m, m1, m2, ?_, ?_, ?_, ?_⟩
  · exact .inl ⟨m1, .done q1 m1 ((reach_map_one hnd hc (hb c hc) m).trans r1) d1, rfl⟩
  · exact .inl ⟨m2, .done q2 m2 (((reach_map_one hnd hd hbd m).trans s2).trans r2) d2, rfl⟩
  · intro e
    have hbx : ∀ e m', (b e).exec m' = m'.set a (g.at3 e.1 e.2.1 e.2.2) (m' a (dn e)) := fun _ _ => rfl
    have hdc : dn c = g.at3 d.1 d.2.1 d.2.2 := by rw [hcd]
    have hdp := (Grid3.mem_haloCells.1 hd).1
    have hdd : g.at3 d.1 d.2.1 d.2.2 ≠ dn d := by
      intro h
      obtain ⟨e1, e2, e3⟩ := Grid3.at3_inj hdp (hdi.pad hok) h
      exact (Grid3.mem_haloCells.1 hd).2 (by
        have := hdi; rw [← e1, ← e2, ← e3] at this; exact this)
    have w1 : m1 a (g.at3 c.1 c.2.1 c.2.2) = y := by
      rw [v1, hbx, Mem.set_same]
      simp only [m]; rw [hdc, if_neg hdd]
    have w2 : m2 a (g.at3 c.1 c.2.1 c.2.2) = x := by
      rw [v2, hbx, Mem.set_same, hdc, hbx, Mem.set_same]
      simp [m]
    rw [e, w2] at w1
    exact hxy w1
  · refine .inr ⟨.dataRace, ?_, rfl⟩
    have hdc : dn c = g.at3 d.1 d.2.1 d.2.2 := by rw [hcd]
    obtain ⟨x, hx⟩ := List.getElem?_of_mem hc
    obtain ⟨l1, l2, hl⟩ := List.append_of_mem hd
    have hxd : x ≠ l1.length := by
      rintro rfl
      rw [hl, List.getElem?_append_right (le_refl _)] at hx
      simp at hx
      exact hne hx.symm
    have hcx : (l1 ++ d :: l2)[x]? = some c := hl ▸ hx
    have hstep : Step sz (g.haloCells.map b, m) (l1.map b ++ .store a (g.at3 d.1 d.2.1 d.2.2) (m a (dn d)) (.pure ()) :: l2.map b, m) := by
      rw [hl, List.map_append, List.map_cons]
      exact .load _ _ a (dn d) (fun v => .store a (g.at3 d.1 d.2.1 d.2.2) v (.pure ())) m (hb d hd).1
    have hcx' : (l1.map b ++ .store a (g.at3 d.1 d.2.1 d.2.2) (m a (dn d)) (.pure ()) :: l2.map b)[x]? = some (b c) := by
      rcases Nat.lt_or_gt_of_ne hxd with h | h
      · rw [List.getElem?_append_left h] at hcx
        rw [List.getElem?_append_left (by simpa using h), List.getElem?_map, hcx]; rfl
      · rw [List.getElem?_append_right (by omega)] at hcx
        rw [List.getElem?_append_right (by simp; omega), List.length_map]
        obtain ⟨y, hy⟩ : ∃ y, x - l1.length = y + 1 := ⟨x - l1.length - 1, by omega⟩
        rw [hy, List.getElem?_cons_succ] at hcx ⊢
        rw [List.getElem?_map, hcx]; rfl
    exact .race _ m (.single hstep) x l1.length hxd (b c) (.store a (g.at3 d.1 d.2.1 d.2.2) (m a (dn d)) (.pure ())) hcx'
      (by rw [List.getElem?_append_right (by simp)]; simp) a (dn c) false true rfl (by rw [hdc]; rfl) (Or.inr rfl)

end Madg
