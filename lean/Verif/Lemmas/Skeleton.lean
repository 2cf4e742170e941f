import Verif.Lemmas.CoreMap
import Verif.Lemmas.Sweep

/-! Which calls succeed, which times are buffered and which measurements wait does not depend on the
numerical values when no measurement is rejected. -/

namespace MSF
variable {A W X C M T E : Type}

/-- The kernel without any numbers. -/
def Kernel.skeleton (K : Kernel A W X C M T E) : Kernel A W Unit Unit M Unit E where
  prop _ _ _ _ := ()
  extProp _ _ := ()
  predP _ _ _ _ := ()
  update _ _ _ _ := ⟨(), (), (), true, false⟩
  P0 := ()
  tr0 := ()
  spike := K.spike
  numX _ := true
  numPos _ := true

theorem Kernel.skeleton_regular (K : Kernel A W X C M T E) : K.skeleton.Regular where
  reject _ _ _ _ h := by cases h
  trackX _ _ _ _ := rfl
  trackP _ _ _ _ := rfl
  numX _ := rfl
  numPos _ := rfl

theorem Kernel.skeleton_sure (K : Kernel A W X C M T E) (sure : M → Bool) : K.skeleton.Sure sure :=
  fun _ _ _ _ _ => rfl

/-- No reading is rejected and no state is discarded as not a number. -/
structure Kernel.AllApplied (K : Kernel A W X C M T E) : Prop where
  applied : ∀ tr m x P, (K.update tr m x P).applied = true
  numX : ∀ x, K.numX x = true
  numPos : ∀ x, K.numPos x = true

def skeletonHom {K : Kernel A W X C M T E} (h : K.AllApplied) : KHom K K.skeleton where
  x _ := ()
  c _ := ()
  m _ := id
  t _ := ()
  e := id
  f _ := false
  prop _ _ _ _ := rfl
  extProp _ _ := rfl
  predP _ _ _ _ := rfl
  update _ tr b s P := by
    simp only [Kernel.skeleton, h.applied]
  P0 := rfl
  tr0 := rfl
  spike _ := rfl
  numX s := (h.numX s).symm
  numPos s := (h.numPos s).symm

def Op.toApi : Op A W M → Api A W X C M E
  | .imu t u => .imu t u
  | .meas m => .meas m

namespace Core
variable [AddCommGroup A] [Module ℚ A] [AddCommGroup W] [Module ℚ W]

theorem calls_eq_apis (env : Env) (K : Kernel A W X C M T E) (ops : List (Op A W M)) :
    ∀ c, calls env K c ops = apis env K c (ops.map Op.toApi) := by
  induction ops with
  | nil => intro c; rfl
  | cons o ops ih =>
    intro c
    have e : call env K c o = api env K c o.toApi := by cases o <;> rfl
    change (call env K c o >>= fun c1 => calls env K c1 ops) =
      (api env K c o.toApi >>= fun c1 => apis env K c1 (ops.map Op.toApi))
    rw [e]
    congr 1
    funext c1
    exact ih c1

theorem timesIn_univ (c : Core A W X C M T) : c.TimesIn Set.univ :=
  ⟨fun _ _ => trivial, fun _ _ => trivial, fun _ _ => trivial, fun _ _ => trivial⟩

theorem skeleton_calls {K : Kernel A W X C M T E} (h : K.AllApplied) (env : Env)
    (c : Core A W X C M T) (ops : List (Op A W M)) :
    calls env K.skeleton ((skeletonHom h).core 0 c) ops =
      (calls env K c ops).map ((skeletonHom h).core 0) := by
  rw [calls_eq_apis, calls_eq_apis]
  have e := map_apis (skeletonHom h) 0 env (Shiftable.zero Set.univ) (ops.map Op.toApi) c
    (timesIn_univ c) (fun _ _ => trivial)
  rw [Env.shift_zero] at e
  rw [← e, List.map_map]
  congr 1
  refine List.map_congr_left fun o _ => ?_
  cases o with
  | imu t u => simp [Op.toApi, KHom.api]
  | meas m => simp [Op.toApi, KHom.api, KHom.meas, skeletonHom]

theorem skeleton_init {K : Kernel A W X C M T E} (h : K.AllApplied) (c : Core A W X C M T) (t : ℚ)
    (s : St A W X C) :
    (skeletonHom h).core 0 (c.init K t s) =
      Core.init K.skeleton ((skeletonHom h).core 0 c) t ⟨s.u, (), ()⟩ := by
  have e := map_init (skeletonHom h) 0 c t s
  rw [← e, add_zero]
  rfl

end Core
end MSF
