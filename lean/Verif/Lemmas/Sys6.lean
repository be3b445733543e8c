import Verif.Lemmas.Sys5

/-! # Lemmas: the shipped programs are sound -/
set_option linter.unusedSimpArgs false
namespace Drift
open Mat Matrix RobotState

theorem skip10 : ∃ k, 1 ≤ k ∧ RosPub.poseSkip 1000 100 = some k := by
  refine ⟨10, by norm_num, ?_⟩
  unfold RosPub.poseSkip
  norm_num

theorem plain_own (k : SubKind) (hk : k.two = false) (et est imu c a b) :
    (∃ x ∈ (Program.plain k et est imu c a b).topics, Port.imu ∈ topicPorts x) → (Program.plain k et est imu c a b).filter = none := fun _ => rfl

theorem plain_fresh (k et est imu c a b) : (Program.plain k et est imu c a b).FilterFresh := by
  intro f hf; cases hf

theorem sound_miniCheetah : Program.miniCheetah.Sound where
  kinds := by norm_num [Program.miniCheetah, Program.plain, KindOK]
  ctor h := ⟨_, rfl⟩
  vel := by simp [Program.miniCheetah, Program.plain]
  leg := by norm_num [Program.miniCheetah, Program.plain]
  bias := .inl rfl
  ori := rfl
  rate := ⟨100, by norm_num, poseSkip_default⟩
  fresh f hf := by cases hf
  safe f hf := by cases hf
  own _ := rfl

theorem sound_fetch : Program.fetch.Sound where
  kinds := by norm_num [Program.fetch, Program.plain, KindOK]
  ctor h := ⟨_, rfl⟩
  vel := by norm_num [Program.fetch, Program.plain]
  leg := by simp [Program.fetch, Program.plain]
  bias := .inr (by simp [Program.fetch, Program.plain])
  ori := rfl
  rate := skip10
  fresh f hf := by cases hf
  safe f hf := by cases hf
  own _ := rfl

theorem sound_girona : Program.girona500.Sound where
  kinds := by norm_num [Program.girona500, Program.plain, KindOK]
  ctor h := ⟨_, rfl⟩
  vel := by norm_num [Program.girona500, Program.plain]
  leg := by simp [Program.girona500, Program.plain]
  bias := .inl rfl
  ori := rfl
  rate := skip10
  fresh f hf := by cases hf
  safe f hf := by cases hf
  own _ := rfl

theorem sound_husky : Program.husky.Sound where
  kinds := by norm_num [Program.husky, Program.plain, KindOK]
  ctor h := ⟨_, rfl⟩
  vel := by norm_num [Program.husky, Program.plain]
  leg := by simp [Program.husky, Program.plain]
  bias := .inr (by simp [Program.husky, Program.plain])
  ori := rfl
  rate := skip10
  fresh f hf := by cases hf
  safe f hf := by cases hf
  own _ := rfl

theorem sound_huskyOdom : Program.huskyOdom.Sound where
  kinds := by
    have : KindOK (.odom [0, 0, 0] [1, 0, 0, 0]) := by
      refine ⟨_, rfl, ?_⟩
      rw [pose4_det]
      exact toRot_det_ne (.inr (by norm_num))
    simp only [Program.huskyOdom, Program.plain]
    intro x hx
    rcases List.mem_cons.mp hx with rfl | hx
    · trivial
    · rw [List.mem_singleton.mp hx]; exact this
  ctor h := ⟨_, rfl⟩
  vel := by norm_num [Program.huskyOdom, Program.plain]
  leg := by simp [Program.huskyOdom, Program.plain]
  bias := .inl rfl
  ori := rfl
  rate := skip10
  fresh f hf := by cases hf
  safe f hf := by cases hf
  own _ := rfl

theorem sound_neya : Program.neya.Sound where
  kinds := by norm_num [Program.neya, Program.plain, KindOK]
  ctor h := ⟨_, rfl⟩
  vel := by norm_num [Program.neya, Program.plain]
  leg := by simp [Program.neya, Program.plain]
  bias := .inr (by simp [Program.neya, Program.plain])
  ori := rfl
  rate := skip10
  fresh f hf := by cases hf
  safe f hf := by cases hf
  own _ := rfl

open GyroFilter in
theorem reg_gyro_enc (c : FCfg) : Registered c 0 1 (mk1 c).addGyro.addAngVel :=
  ⟨rfl, rfl, rfl, rfl, rfl, fun h => absurd h (lt_irrefl _), fun _ => rfl, rfl⟩

open GyroFilter in
theorem reg_gyro_imu (c : FCfg) : Registered c 1 0 (mk1 c).addGyro.addImu :=
  ⟨rfl, rfl, rfl, rfl, rfl, fun _ => rfl, fun h => absurd h (lt_irrefl _), rfl⟩

theorem fresh_of {P : Program} {f : GyroFilter} (h : P.filter = some f) (h1 : f.gyro = some [] ∨ f.gyro = none) (h2 : f.imu = some [] ∨ f.imu = none)
    (h3 : f.imus = []) (h4 : f.enc = some [] ∨ f.enc = none) (h5 : f.latest = none) (h6 : f.out = []) : P.FilterFresh := by
  intro g hg
  rw [h] at hg
  rw [← Option.some.inj hg]
  have aux : ∀ {α : Type} {o : Option (List α)}, (o = some [] ∨ o = none) → ∀ q, o = some q → q = [] := by
    intro α o ho q hq
    rcases ho with ho | ho <;> rw [ho] at hq
    · exact (Option.some.inj hq).symm
    · cases hq
  exact ⟨aux h1, aux h2, by simp [h3], aux h4, h5, h6⟩

theorem no_imu_port {P : Program} (h : ∀ x ∈ P.topics, Port.imu ∉ topicPorts x) : (∃ x ∈ P.topics, Port.imu ∈ topicPorts x) → P.filter = none := by
  rintro ⟨x, hx, hp⟩
  exact absurd hp (h x hx)

theorem sound_fetchGyro : Program.fetchGyro.Sound where
  kinds := by norm_num [Program.fetchGyro, KindOK]
  ctor h := ⟨_, rfl⟩
  vel := by norm_num [Program.fetchGyro]
  leg := by simp [Program.fetchGyro]
  bias := .inr (by simp [Program.fetchGyro])
  ori := rfl
  rate := skip10
  fresh := fresh_of rfl (.inl rfl) (.inr rfl) rfl (.inl rfl) rfl rfl
  safe f hf := by
    rw [← Option.some.inj hf]
    refine ⟨(reg_gyro_enc _).safe (.inl ⟨rfl, rfl⟩) ?_ (fun h => by cases h), by simp [GyroFilter.addAngVel, GyroFilter.addGyro, GyroFilter.mk1, GyroFilter.base], ?_, .inl rfl⟩
    · norm_num [GyroFilter.Noisy, Program.filterCfg]
    · simp [GyroFilter.addAngVel, GyroFilter.addGyro, GyroFilter.mk1, GyroFilter.base, Program.filterCfg]
  own := no_imu_port (by simp [Program.fetchGyro, topicPorts, SubKind.two])

theorem sound_huskyDouble : Program.huskyDouble.Sound where
  kinds := by norm_num [Program.huskyDouble, KindOK]
  ctor h := ⟨_, rfl⟩
  vel := by norm_num [Program.huskyDouble]
  leg := by simp [Program.huskyDouble]
  bias := .inr (by simp [Program.huskyDouble])
  ori := rfl
  rate := skip10
  fresh := fresh_of rfl (.inl rfl) (.inl rfl) rfl (.inr rfl) rfl rfl
  safe f hf := by
    rw [← Option.some.inj hf]
    refine ⟨(reg_gyro_imu _).safe (.inr (.inl ⟨rfl, rfl⟩)) ?_ (fun h => by cases h), by simp [GyroFilter.addImu, GyroFilter.addGyro, GyroFilter.mk1, GyroFilter.base], ?_, .inr (.inl rfl)⟩
    · norm_num [GyroFilter.Noisy, Program.filterCfg]
    · simp [GyroFilter.addImu, GyroFilter.addGyro, GyroFilter.mk1, GyroFilter.base, Program.filterCfg]
  own := no_imu_port (by simp [Program.huskyDouble, topicPorts, SubKind.two])

theorem sound_huskyGyro : Program.huskyGyro.Sound where
  kinds := by norm_num [Program.huskyGyro, KindOK]
  ctor h := ⟨_, rfl⟩
  vel := by norm_num [Program.huskyGyro]
  leg := by simp [Program.huskyGyro]
  bias := .inr (by simp [Program.huskyGyro])
  ori := rfl
  rate := skip10
  fresh := fresh_of rfl (.inr rfl) (.inl rfl) rfl (.inl rfl) rfl rfl
  safe f hf := by
    rw [← Option.some.inj hf]
    have hch : (GyroFilter.mk5 (Program.filterCfg ⟨0, 0.7071, -0.7071, 0⟩ 0.03 .imuPlusAngVel ![0.00124314, -0.00037725, -0.00254523])).chooseMethod = .imuPlusAngVel := by
      simp [GyroFilter.chooseMethod, GyroFilter.mk5, GyroFilter.base, Program.filterCfg]
    refine ⟨⟨GyroFilter.diag6_psd _ _, ?_, fun h => (by cases h), ?_, fun h => (by cases h)⟩, by simp [GyroFilter.mk5, GyroFilter.base], ?_, .inr (.inr ⟨rfl, hch⟩)⟩
    · norm_num [GyroFilter.Noisy, GyroFilter.mk5, GyroFilter.base, Program.filterCfg]
    · rw [hch]; exact ⟨rfl, rfl⟩
    · simp [GyroFilter.mk5, GyroFilter.base, Program.filterCfg]
  own := no_imu_port (by simp [Program.huskyGyro, topicPorts, SubKind.two])

theorem sound_neyaGyro : Program.neyaGyro.Sound where
  kinds := by norm_num [Program.neyaGyro, KindOK]
  ctor h := ⟨_, rfl⟩
  vel := by norm_num [Program.neyaGyro]
  leg := by simp [Program.neyaGyro]
  bias := .inr (by simp [Program.neyaGyro])
  ori := rfl
  rate := skip10
  fresh := fresh_of rfl (.inl rfl) (.inl rfl) rfl (.inr rfl) rfl rfl
  safe f hf := by
    rw [← Option.some.inj hf]
    refine ⟨(reg_gyro_imu _).safe (.inr (.inl ⟨rfl, rfl⟩)) ?_ (fun h => ⟨by norm_num, ?_⟩), by simp [GyroFilter.addImu, GyroFilter.addGyro, GyroFilter.mk1, GyroFilter.base], ?_, .inr (.inl rfl)⟩
    · norm_num [GyroFilter.Noisy]
    · simp [GyroFilter.toSize]
    · simp [GyroFilter.addImu, GyroFilter.addGyro, GyroFilter.mk1, GyroFilter.base]
  own := no_imu_port (by simp [Program.neyaGyro, topicPorts, SubKind.two])

theorem sound_shipped : ∀ P ∈ Program.shipped, P.Sound := by
  intro P hP
  simp only [Program.shipped, List.mem_cons, List.not_mem_nil, or_false] at hP
  rcases hP with rfl | rfl | rfl | rfl | rfl | rfl | rfl | rfl | rfl | rfl
  · exact sound_miniCheetah
  · exact sound_fetch
  · exact sound_girona
  · exact sound_husky
  · exact sound_huskyOdom
  · exact sound_neya
  · exact sound_fetchGyro
  · exact sound_huskyDouble
  · exact sound_huskyGyro
  · exact sound_neyaGyro

end Drift
