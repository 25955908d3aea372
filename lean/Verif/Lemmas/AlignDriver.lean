import Verif.Model.AlignDriver
import Verif.Props.Transformation
import Verif.Props.AlignTelescope
/-
Lemmas about the model of `align`.
-/
namespace BTA.Align
open BTA.Dut BTA.Transformation

theorem bind_ok {ε α β : Type} {x : Except ε α} {f : α → Except ε β} {b : β} (h : (x >>= f) = .ok b) : ∃ a, x = .ok a ∧ f a = .ok b := by
  cases x with
  | error e => cases h
  | ok a => exact ⟨a, rfl, h⟩

theorem bind_error {ε α β : Type} {x : Except ε α} {f : α → Except ε β} {e : ε} (h : (x >>= f) = .error e) :
    x = .error e ∨ ∃ a, x = .ok a ∧ f a = .error e := by
  cases x with
  | error e' => injection h with h; exact .inl (by rw [h])
  | ok a => exact .inr ⟨a, rfl, h⟩

theorem remove_ok {w w' : World} {f : Tmp} (h : w.remove f = .ok w') :
    f ∈ w.files ∧ w'.conf = w.conf ∧ w'.calls = w.calls ∧ ∀ x, x ∈ w'.files ↔ x ∈ w.files ∧ x ≠ f := by
  unfold World.remove at h
  split at h
  · next hf =>
    injection h with h
    subst h
    exact ⟨hf, rfl, rfl, fun x => by simp⟩
  · cases h

theorem remove_error {w : World} {f : Tmp} {e : Err} (h : w.remove f = .error e) : e = .missingFile ∧ f ∉ w.files := by
  unfold World.remove at h
  split at h
  · cases h
  · next hf =>
    injection h with h
    exact ⟨h.symm, hf⟩

theorem call_files (w : World) (c : Call) (f x : Tmp) : x ∈ (w.call c f).files ↔ x = f ∨ x ∈ w.files := by
  unfold World.call
  by_cases h : x = f <;> simp [h]

/-! ### Steps -/

/-- The configuration after `align_telescope`. -/
def Beamed (o : Oracle) (tel : List Nat) (g : Group) (c c1 : Conf) : Prop :=
  (common g.duts tel = [] ∧ c1 = c) ∨
  (common g.duts tel ≠ [] ∧ ∃ t, AlignTel.alignTelescope o.svd (toTel c) (common g.duts tel) none = .ok t ∧ c1 = ofTel c t)

theorem toBeam_ok {o : Oracle} {tel : List Nat} {g : Group} {w w' : World} (h : toBeam o tel g w = .ok w') :
    Beamed o tel g w.conf w'.conf ∧ w'.files = w.files ∧ w'.calls = w.calls := by
  unfold toBeam at h
  split at h
  · next hc =>
    injection h with h
    subst h
    exact ⟨.inl ⟨hc, rfl⟩, rfl, rfl⟩
  · next d ds hc =>
    split at h
    · cases h
    · next t ht =>
      injection h with h
      subst h
      exact ⟨.inr ⟨by rw [hc]; simp, t, by rw [hc]; exact ht, rfl⟩, rfl, rfl⟩

theorem readQuality_ok {q : List (Option (ℝ × ℝ))} {w w' : World} (h : readQuality q w = .ok w') : w' = w ∧ ∀ d ∈ q, d ≠ none := by
  unfold readQuality at h
  split at h
  · next hq =>
    injection h with h
    refine ⟨h.symm, fun d hd hn => ?_⟩
    rw [List.all_eq_true] at hq
    have := hq d hd
    rw [hn] at this
    cases this
  · cases h

theorem removeCandidates_ok {g : Group} {step : Nat} {w w' : World} (h : removeCandidates g step w = .ok w') :
    w'.conf = w.conf ∧ w'.calls = w.calls ∧ ∀ x, x ∈ w'.files ↔ x ∈ w.files ∧ (step ≠ 0 → x ≠ .candidates g.duts step) := by
  unfold removeCandidates at h
  split at h
  · next hs =>
    injection h with h
    subst h
    exact ⟨rfl, rfl, fun x => by simp [hs]⟩
  · next hs =>
    obtain ⟨-, h1, h2, h3⟩ := remove_ok h
    exact ⟨h1, h2, fun x => by rw [h3]; simp [hs]⟩

/-- The calls of `findCandidates`. -/
def findCall (c : Conf) (g : Group) (step : Nat) : List Call :=
  if step = 0 then [] else [.findTracks c (.candidates g.duts step) g.maxEvents]

theorem findCandidates_ok {g : Group} {step : Nat} {w w' : World} (h : findCandidates g step w = .ok w') :
    w'.conf = w.conf ∧ w'.calls = findCall w.conf g step ++ w.calls ∧
    (∀ x, x ∈ w'.files ↔ (step ≠ 0 ∧ x = .candidates g.duts step) ∨ (x ∈ w.files ∧ (1 < step → x ≠ .candidates g.duts (step - 1)))) := by
  unfold findCandidates at h
  split at h
  · next hs =>
    injection h with h
    subst h
    refine ⟨rfl, by simp [findCall, hs], fun x => by simp [hs]⟩
  · next hs =>
    split at h
    · cases h
    · next w1 h1 =>
      injection h with h
      subst h
      obtain ⟨a1, a2, a3⟩ := removeCandidates_ok h1
      refine ⟨a1, ?_, fun x => ?_⟩
      · simp [findCall, hs, World.call, a1, a2]
      · rw [call_files, a3]
        have : (step - 1 ≠ 0) ↔ 1 < step := by omega
        rw [this]
        simp [hs]

/-- The rotation after `angleStep` is the one before or was set; it is only set if a fit DUT is aligned. -/
theorem angleStep_ok {o : Oracle} {g : Group} {step : Nat} {w w' : World} (h : angleStep o g step w = .ok w') :
    w'.conf.duts = w.conf.duts ∧ w'.conf.n = w.conf.n ∧
    (common g.duts g.fitDuts = [] → w' = w) ∧
    (common g.duts g.fitDuts ≠ [] → w'.calls = .trackAngles w.conf (.selected g.duts step) (.angles g.duts step) g.duts :: w.calls ∧
      (∀ a b, o.angles w'.calls = some (a, b) → w'.conf.alpha = a ∧ w'.conf.beta = b) ∧
      (o.angles w'.calls = none → w'.conf = w.conf)) ∧
    (∀ x, x ∈ w'.files → x ∈ w.files) ∧ (∀ x, x ∈ w.files → x ∈ w'.files ∨ x = .angles g.duts step) := by
  unfold angleStep at h
  split at h
  · next hc =>
    injection h with h
    subst h
    exact ⟨rfl, rfl, fun _ => rfl, fun hn => absurd hc hn, fun x hx => hx, fun x hx => .inl hx⟩
  · next hc =>
    have hne : common g.duts g.fitDuts ≠ [] := hc
    cases hang : o.angles (w.call (.trackAngles w.conf (.selected g.duts step) (.angles g.duts step) g.duts) (.angles g.duts step)).calls with
    | none =>
      dsimp only at h
      rw [hang] at h
      obtain ⟨-, h2, h3, h4⟩ := remove_ok h
      have hcalls : w'.calls = (w.call (.trackAngles w.conf (.selected g.duts step) (.angles g.duts step) g.duts) (.angles g.duts step)).calls := h3
      refine ⟨by rw [h2]; rfl, by rw [h2]; rfl, fun hn => absurd hn hne, fun _ => ⟨hcalls, ?_, fun _ => h2⟩, ?_, ?_⟩
      · intro a b hab
        rw [hcalls, hang] at hab
        cases hab
      · intro x hx
        obtain ⟨q1, q2⟩ := (h4 x).mp hx
        rw [call_files] at q1
        exact q1.resolve_left q2
      · intro x hx
        by_cases hxe : x = .angles g.duts step
        · exact .inr hxe
        · exact .inl ((h4 x).mpr ⟨(call_files _ _ _ _).mpr (.inr hx), hxe⟩)
    | some ab =>
      obtain ⟨a, b⟩ := ab
      dsimp only at h
      rw [hang] at h
      obtain ⟨-, h2, h3, h4⟩ := remove_ok h
      have hcalls : w'.calls = (w.call (.trackAngles w.conf (.selected g.duts step) (.angles g.duts step) g.duts) (.angles g.duts step)).calls := h3
      refine ⟨by rw [h2]; rfl, by rw [h2]; rfl, fun hn => absurd hn hne, fun _ => ⟨hcalls, ?_, ?_⟩, ?_, ?_⟩
      · intro a' b' hab
        rw [hcalls, hang] at hab
        injection hab with hab
        injection hab with e1 e2
        rw [h2, ← e1, ← e2]
        exact ⟨rfl, rfl⟩
      · intro hn
        rw [hcalls, hang] at hn
        cases hn
      · intro x hx
        obtain ⟨q1, q2⟩ := (h4 x).mp hx
        exact ((call_files w (.trackAngles w.conf (.selected g.duts step) (.angles g.duts step) g.duts) _ _).mp q1).resolve_left q2
      · intro x hx
        by_cases hxe : x = .angles g.duts step
        · exact .inr hxe
        · exact .inl ((h4 x).mpr ⟨(call_files w (.trackAngles w.conf (.selected g.duts step) (.angles g.duts step) g.duts) _ _).mpr (.inr hx), hxe⟩)

theorem residualStep_ok {plot : Bool} {g : Group} {step : Nat} {w w' : World} (h : residualStep plot g step w = .ok w') :
    w'.conf = w.conf ∧
    w'.calls = (if plot then [.residuals w.conf (.selected g.duts step) (.residuals g.duts step) g.duts] else []) ++ w.calls ∧
    (∀ x, x ∈ w'.files → x ∈ w.files) ∧ (∀ x, x ∈ w.files → x ∈ w'.files ∨ x = .residuals g.duts step) := by
  unfold residualStep at h
  split at h
  · next hp =>
    obtain ⟨-, h2, h3, h4⟩ := remove_ok h
    refine ⟨h2, by rw [h3]; simp [hp, World.call], ?_, ?_⟩
    · intro x hx
      obtain ⟨q1, q2⟩ := (h4 x).mp hx
      exact ((call_files _ _ _ _).mp q1).resolve_left q2
    · intro x hx
      by_cases hxe : x = .residuals g.duts step
      · exact .inr hxe
      · exact .inl ((h4 x).mpr ⟨(call_files _ _ _ _).mpr (.inr hx), hxe⟩)
  · next hp =>
    injection h with h
    subst h
    exact ⟨rfl, by simp [hp], fun x hx => hx, fun x hx => .inl hx⟩

/-- The parameters given to `calculate_transformation`. -/
def paramList (tel : List Nat) (g : Group) : List (Option (List String)) :=
  List.zipWith (fun d p => some (parametersFor tel d p)) g.duts g.parameters

theorem transformStep_ok {o : Oracle} {a : Args} {tel : List Nat} {g : Group} {w w' : World} (h : transformStep o a tel g w = .ok w') :
    calculateTransformation o.np ⟨a.useLimits, some 100, a.chunkSize⟩ o.fuel g.duts (some (paramList tel g)) (o.tables w.calls) w.conf.duts
      = .ok w'.conf.duts ∧
    w'.conf.alpha = w.conf.alpha ∧ w'.conf.beta = w.conf.beta ∧ w'.conf.n = w.conf.n ∧ w'.calls = w.calls ∧ w'.files = w.files := by
  unfold transformStep at h
  split at h
  · cases h
  · next duts hd =>
    injection h with h
    subst h
    exact ⟨hd, rfl, rfl, rfl, rfl, rfl⟩

/-! ### One iteration -/

/-- The calls of one iteration, last one first; `c` is the configuration after `align_telescope`. -/
noncomputable def stepCalls (a : Args) (quality : List (Option (ℝ × ℝ))) (g : Group) (step : Nat) (c : Conf) (c2 : Conf) : List Call :=
  (if a.plot then [.residuals c2 (.selected g.duts step) (.residuals g.duts step) g.duts] else []) ++
  (if common g.duts g.fitDuts = [] then [] else [.trackAngles c (.selected g.duts step) (.angles g.duts step) g.duts]) ++
  [.selectTracks c (.tracks g.duts step) (.selected g.duts step) g.duts (requiredHits g) (List.zipWith queryOf g.chi2 g.shapes),
   .fitTracks c (if step = 0 then .prealigned else .candidates g.duts step) (.tracks g.duts step)
    (if step > 0 then none else g.maxEvents) g.duts g.fitDuts (requiredHits g) quality a.useLimits] ++
  findCall c g step

/-- What one iteration does. -/
structure Iterated (o : Oracle) (a : Args) (quality : List (Option (ℝ × ℝ))) (g : Group) (step : Nat) (w w' : World) (tel : List Nat) (c1 c2 : Conf) : Prop where
  telescope : a.telescopeDuts = some tel
  distances : ∀ d ∈ quality, d ≠ none
  beamed : Beamed o tel g w.conf c1
  duts : c2.duts = c1.duts
  n : c2.n = c1.n
  rotation : common g.duts g.fitDuts = [] → c2 = c1
  calls : w'.calls = stepCalls a quality g step c1 c2 ++ w.calls
  transformed : calculateTransformation o.np ⟨a.useLimits, some 100, a.chunkSize⟩ o.fuel g.duts (some (paramList tel g)) (o.tables w'.calls) c2.duts
      = .ok w'.conf.duts
  alpha : w'.conf.alpha = c2.alpha
  beta : w'.conf.beta = c2.beta
  n' : w'.conf.n = c2.n
  files : ∀ x, x ∈ w'.files → (step ≠ 0 ∧ x = .candidates g.duts step) ∨ (x ∈ w.files ∧ (1 < step → x ≠ .candidates g.duts (step - 1)))
  kept : ∀ x, x ∈ w.files → x = .prealigned → x ∈ w'.files
  candidates : step ≠ 0 → .candidates g.duts step ∈ w'.files

theorem iteration_ok {o : Oracle} {a : Args} {quality : List (Option (ℝ × ℝ))} {g : Group} {step : Nat} {w w' : World}
    (h : iteration o a quality g step w = .ok w') : ∃ tel c1 c2, Iterated o a quality g step w w' tel c1 c2 := by
  unfold iteration at h
  split at h
  · cases h
  · next tel htel =>
    obtain ⟨w1, h1, i1⟩ := bind_ok h
    obtain ⟨w2, h2, i2⟩ := bind_ok i1
    obtain ⟨w3, h3, i3⟩ := bind_ok i2
    obtain ⟨w5, h5, i5⟩ := bind_ok i3
    obtain ⟨w6, h6, i6⟩ := bind_ok i5
    obtain ⟨w7, h7, i7⟩ := bind_ok i6
    obtain ⟨w8, h8, i8⟩ := bind_ok i7
    clear h i1 i2 i3 i5 i6 i7
    obtain ⟨a1, a2, a3⟩ := toBeam_ok h1
    obtain ⟨rfl, b2⟩ := readQuality_ok h2
    obtain ⟨d1, d2, d3⟩ := findCandidates_ok h3
    obtain ⟨e1, e2, e3, e4, e5, e6⟩ := angleStep_ok h5
    obtain ⟨f1, f2, f3, f4⟩ := residualStep_ok h6
    obtain ⟨g1, g2, g3, g4, g5, g6⟩ := transformStep_ok h7
    obtain ⟨k1, k2, k3, k4⟩ := remove_ok h8
    obtain ⟨l1, l2, l3, l4⟩ := remove_ok i8
    have hsel : (selectStep g step (fitStep a.useLimits quality g step w3)).conf = w2.conf := by rw [← d1]; rfl
    have hselF : ∀ x, x ∈ (selectStep g step (fitStep a.useLimits quality g step w3)).files ↔
        x = .selected g.duts step ∨ x = .tracks g.duts step ∨ x ∈ w3.files := by
      intro x
      unfold selectStep
      rw [call_files]
      unfold fitStep
      rw [call_files]
    have hcalls : w'.calls = stepCalls a quality g step w2.conf w5.conf ++ w.calls := by
      rw [l3, k3, g5, f2]
      unfold stepCalls
      by_cases hc : common g.duts g.fitDuts = []
      · rw [if_pos hc, e3 hc]
        simp only [selectStep, fitStep, World.call, d2, d1, a3, List.append_assoc, List.cons_append, List.nil_append, List.append_nil]
      · rw [if_neg hc, (e4 hc).1]
        simp only [selectStep, fitStep, World.call, d2, d1, a3, List.append_assoc, List.cons_append, List.nil_append, List.append_nil]
    refine ⟨tel, w2.conf, w5.conf, ⟨htel, b2, a1, by rw [e1, hsel], by rw [e2, hsel], ?_, hcalls, ?_, ?_, ?_, ?_, ?_, ?_, ?_⟩⟩
    · intro hc
      rw [e3 hc, hsel]
    · rw [l3, k3, g5, l2, k2, ← f1]
      exact g1
    · rw [l2, k2, g2, f1]
    · rw [l2, k2, g3, f1]
    · rw [l2, k2, g4, f1]
    · intro x hx
      obtain ⟨x1, x2⟩ := (l4 x).mp hx
      obtain ⟨x3, x4⟩ := (k4 x).mp x1
      rw [g6] at x3
      have x5 := e5 x (f3 x x3)
      rw [hselF] at x5
      have := (d3 x).mp ((x5.resolve_left x2).resolve_left x4)
      rwa [a2] at this
    · intro x hx hp
      subst hp
      refine (l4 _).mpr ⟨(k4 _).mpr ⟨?_, by simp⟩, by simp⟩
      rw [g6]
      refine (f4 _ ((e6 _ ?_).resolve_right (by simp))).resolve_right (by simp)
      rw [hselF, d3, a2]
      exact .inr (.inr (.inr ⟨hx, by simp⟩))
    · intro hs
      refine (l4 _).mpr ⟨(k4 _).mpr ⟨?_, by simp⟩, by simp⟩
      rw [g6]
      refine (f4 _ ((e6 _ ?_).resolve_right (by simp))).resolve_right (by simp)
      rw [hselF, d3]
      exact .inr (.inr (.inl ⟨hs, rfl⟩))

/-! ### All iterations, all groups -/

theorem iterations_inv {o : Oracle} {a : Args} {quality : List (Option (ℝ × ℝ))} {g : Group} (P : Nat → World → Prop)
    (hstep : ∀ step w w' tel c1 c2, P step w → Iterated o a quality g step w w' tel c1 c2 → P (step + 1) w') :
    ∀ (k step : Nat) (w w' : World), P step w → iterations o a quality g k step w = .ok w' → P (step + k) w'
  | 0, step, w, w', hp, h => by
    simp only [iterations] at h
    injection h with h
    subst h
    exact hp
  | k + 1, step, w, w', hp, h => by
    simp only [iterations] at h
    obtain ⟨w1, h1, h2⟩ := bind_ok h
    obtain ⟨tel, c1, c2, hi⟩ := iteration_ok h1
    have := iterations_inv P hstep k (step + 1) w1 w' (hstep step w w1 tel c1 c2 hp hi) h2
    rwa [Nat.add_assoc, Nat.add_comm 1 k] at this

theorem alignGroup_ok {o : Oracle} {a : Args} {quality : List (Option (ℝ × ℝ))} {g : Group} {w w' : World}
    (h : alignGroup o a quality g w = .ok w') :
    ∃ w1, iterations o a quality g g.iterations 0 w = .ok w1 ∧ removeCandidates g (g.iterations - 1) w1 = .ok w' := bind_ok h

/-- A property of the configuration that each iteration keeps. -/
theorem alignGroup_conf {o : Oracle} {a : Args} {quality : List (Option (ℝ × ℝ))} {g : Group} (P : Conf → Prop)
    (hstep : ∀ step w w' tel c1 c2, P w.conf → Iterated o a quality g step w w' tel c1 c2 → P w'.conf) {w w' : World} (hp : P w.conf)
    (h : alignGroup o a quality g w = .ok w') : P w'.conf := by
  obtain ⟨w1, h1, h2⟩ := alignGroup_ok h
  rw [(removeCandidates_ok h2).1]
  exact iterations_inv (fun _ w => P w.conf) hstep _ _ _ _ hp h1

theorem findPrealigned_conf (input : Conf) (w : World) : (findPrealigned input w).conf = w.conf := by
  unfold findPrealigned
  split <;> rfl

theorem alignGroups_inv {o : Oracle} {a : Args} {input : Conf} {quality : List (Option (ℝ × ℝ))} (P : World → Prop) :
    ∀ (gs : List Group), (∀ g ∈ gs, ∀ w w', P w → alignGroup o a quality g (findPrealigned input w) = .ok w' → P w') →
    ∀ (w w' : World), P w → alignGroups o a input quality gs w = .ok w' → P w'
  | [], _, w, w', hp, h => by
    simp only [alignGroups] at h
    injection h with h
    subst h
    exact hp
  | g :: gs, hg, w, w', hp, h => by
    simp only [alignGroups] at h
    split at h
    · cases h
    · obtain ⟨w1, h1, h2⟩ := bind_ok h
      exact alignGroups_inv P gs (fun g' hg' => hg g' (by simp [hg'])) w1 w' (hg g (by simp) w w1 hp h1) h2

theorem runAlign_ok {o : Oracle} {a : Args} {input : Conf} {existing : Option Conf} {files : List Tmp}
    {s : List Group × List (Option (ℝ × ℝ))} {w : World} (h : runAlign o a input existing files s = .ok w) :
    ∃ w1, alignGroups o a input s.2 s.1 ⟨startConf input existing s.1, files.filter (· ≠ .prealigned), []⟩ = .ok w1 ∧ w = cleanUp w1 := by
  unfold runAlign at h
  split at h
  · cases h
  · obtain ⟨w1, h1, h2⟩ := bind_ok h
    injection h2 with h2
    exact ⟨w1, h1, h2.symm⟩

/-- A property of the configuration that holds at the start and that each iteration of each group keeps. -/
theorem run_conf {o : Oracle} {a : Args} {input : Conf} {existing : Option Conf} {files : List Tmp}
    {s : List Group × List (Option (ℝ × ℝ))} {w : World} (P : Conf → Prop) (h0 : P (startConf input existing s.1))
    (hstep : ∀ g ∈ s.1, ∀ step w w' tel c1 c2, P w.conf → Iterated o a s.2 g step w w' tel c1 c2 → P w'.conf)
    (h : runAlign o a input existing files s = .ok w) : P w.conf := by
  obtain ⟨w1, h1, rfl⟩ := runAlign_ok h
  refine alignGroups_inv (fun w => P w.conf) s.1 ?_ _ w1 h0 h1
  intro g hg w w' hp hw
  exact alignGroup_conf P (hstep g hg) (by rw [findPrealigned_conf]; exact hp) hw

theorem align_ok {legacy : Bool} {root : List Char → List Char} {o : Oracle} {a : Args} {store : Store} {input : List Char}
    {output : Option (List Char)} {files : List Tmp} {r : Result} (h : align legacy root o a store input output files = .ok r) :
    ∃ conf s, store input = some conf ∧ settings legacy conf.n a = .ok s ∧ outputName root input output = .ok r.output ∧
      runAlign o a conf (store r.output) files s = .ok r.world ∧ r.store = fun f => if f = r.output then some r.world.conf else store f := by
  unfold align at h
  split at h
  · cases h
  · next conf hc =>
    obtain ⟨s, h1, i1⟩ := bind_ok h
    obtain ⟨out, h2, i2⟩ := bind_ok i1
    obtain ⟨w, h3, i3⟩ := bind_ok i2
    injection i3 with i3
    subst i3
    exact ⟨conf, s, hc, h1, h2, h3, rfl⟩

end BTA.Align
