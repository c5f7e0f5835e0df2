import Verif.Spec.Enum
import Verif.Proofs.Region
/-! Enumeration: what any run of it leaves in the limits and in the tree. -/
namespace Verif.Proofs
open Verif Verif.Model Verif.Spec

/-! ### Reasoning about computations -/

/-- Every successful run of `m` from `s` satisfies `Q`. -/
def Post {σ α : Type} (m : Sim σ α) (s : Rc σ) (Q : α → Rc σ → Prop) : Prop :=
  ∀ a s', m s = some (a, s') → Q a s'

theorem Post.bind {σ α β} {m : Sim σ α} {f : α → Sim σ β} {s : Rc σ} {Q : β → Rc σ → Prop}
    (h : Post m s fun a s' => Post (f a) s' Q) : Post (m >>= f) s Q := by
  intro b s'' hb
  change (m s).bind _ = _ at hb
  cases hm : m s with
  | none => rw [hm] at hb; cases hb
  | some x => rw [hm] at hb; exact h x.1 x.2 hm b s'' hb

theorem Post.pure {σ α} {a : α} {s : Rc σ} {Q : α → Rc σ → Prop} (h : Q a s) : Post (pure a : Sim σ α) s Q := by
  intro b s' hb
  cases hb
  exact h

theorem Post.fail {σ α} {s : Rc σ} {Q : α → Rc σ → Prop} : Post (Sim.fail : Sim σ α) s Q := by
  intro b s' hb; cases hb

theorem Post.mono {σ α} {m : Sim σ α} {s : Rc σ} {P Q : α → Rc σ → Prop} (h : Post m s P)
    (hpq : ∀ a s', P a s' → Q a s') : Post m s Q := fun a s' hm => hpq a s' (h a s' hm)

theorem Post.get {σ} {s : Rc σ} {Q : Rc σ → Rc σ → Prop} (h : Q s s) : Post (get : Sim σ (Rc σ)) s Q := by
  intro b s' hb; cases hb; exact h

theorem Post.set {σ} {s t : Rc σ} {Q : PUnit → Rc σ → Prop} (h : Q ⟨⟩ t) : Post (set t : Sim σ PUnit) s Q := by
  intro b s' hb; cases hb; exact h

theorem Post.modify {σ} {s : Rc σ} {f : Rc σ → Rc σ} {Q : PUnit → Rc σ → Prop} (h : Q ⟨⟩ (f s)) :
    Post (modify f : Sim σ PUnit) s Q := by
  intro b s' hb; cases hb; exact h

theorem Post.ofOption {σ α} {o : Option α} {s : Rc σ} {Q : α → Rc σ → Prop} (h : ∀ a, o = some a → Q a s) :
    Post (Sim.ofOption o : Sim σ α) s Q := by
  intro b s' hb
  cases o with
  | none => cases hb
  | some x => cases hb; exact h _ rfl

/-! ### Computations that leave the limits alone -/

/-- A value for each address space. -/
abbrev Lim := Space → Nat

/-- The allocation limits of the root complex. -/
def limOf {σ} (rc : Rc σ) : Lim
  | .io => rc.io_limit
  | .mem => rc.mem_limit
  | .pref => rc.prefetchable_mem_limit

/-- The computation does not change the limits. -/
def Keeps {σ α : Type} (m : Sim σ α) : Prop := ∀ s, Post m s fun _ s' => limOf s' = limOf s

theorem Keeps.bind {σ α β} {m : Sim σ α} {f : α → Sim σ β} (h : Keeps m) (hf : ∀ a, Keeps (f a)) :
    Keeps (m >>= f) := fun s => Post.bind ((h s).mono fun a s' e => (hf a s').mono fun _ _ e' => e'.trans e)

theorem Keeps.pure {σ α} (a : α) : Keeps (pure a : Sim σ α) := fun _ => Post.pure rfl
theorem Keeps.fail {σ α} : Keeps (Sim.fail : Sim σ α) := fun _ => Post.fail
theorem Keeps.ofOption {σ α} (o : Option α) : Keeps (Sim.ofOption o : Sim σ α) := fun _ => Post.ofOption fun _ _ => rfl
theorem Keeps.get {σ} : Keeps (get : Sim σ (Rc σ)) := fun _ => Post.get rfl

theorem send_keeps {σ} (bus : Bus σ) (t : Tlp) : Keeps (Sim.send bus t) := by
  intro s a s' h
  unfold Sim.send at h
  split at h
  · cases h
  · cases hb : bus s.net t with
    | none => rw [hb] at h; cases h
    | some x => rw [hb] at h; cases h; funext sp; cases sp <;> rfl

theorem freeTag_keeps {σ} : Keeps (Sim.freeTag : Sim σ Nat) := by
  intro s a s' h
  unfold Sim.freeTag at h
  split at h
  · cases h; funext sp; cases sp <;> rfl
  · cases h

theorem recvCpl_keeps {σ} (tag : Nat) (timeout : Bool) : Keeps (Sim.recvCpl tag timeout : Sim σ _) := by
  intro s a s' h
  unfold Sim.recvCpl at h
  split at h
  · cases h; funext sp; cases sp <;> rfl
  · split at h
    · cases h; rfl
    · cases h

theorem configReadLoop_keeps {σ} (bus : Bus σ) (dev : PcieId) (timeout : Bool) (k : Nat) :
    ∀ addr rem, Keeps (configReadLoop bus dev timeout k addr rem) := by
  induction k with
  | zero => intro _ _; exact Keeps.pure _
  | succ k ih =>
    intro addr rem
    rw [configReadLoop]
    split
    · exact Keeps.pure _
    · exact freeTag_keeps.bind fun _ => (send_keeps _ _).bind fun _ => (recvCpl_keeps _ _).bind fun _ =>
        (Keeps.ofOption _).bind fun _ => (ih _ _).bind fun _ => Keeps.pure _

theorem configRead_keeps {σ} (bus : Bus σ) (dev : PcieId) (addr length : Nat) (timeout : Bool) :
    Keeps (configRead bus dev addr length timeout) :=
  (configReadLoop_keeps _ _ _ _ _ _).bind fun _ => Keeps.pure _

theorem configWriteLoop_keeps {σ} (bus : Bus σ) (dev : PcieId) (k : Nat) :
    ∀ addr data, Keeps (configWriteLoop bus dev k addr data) := by
  induction k with
  | zero => intro _ _; exact Keeps.pure _
  | succ k ih =>
    intro addr data
    rw [configWriteLoop]
    split
    · exact Keeps.pure _
    · exact freeTag_keeps.bind fun _ => (Keeps.ofOption _).bind fun _ => (send_keeps _ _).bind fun _ =>
        (recvCpl_keeps _ _).bind fun _ => ih _ _

theorem configWrite_keeps {σ} (bus : Bus σ) (dev : PcieId) (addr : Nat) (data : List UInt8) :
    Keeps (configWrite bus dev addr data) := configWriteLoop_keeps _ _ _ _ _

theorem configReadNum_keeps {σ} (bus : Bus σ) (w : Nat) (dev : PcieId) (addr : Nat) (timeout : Bool) :
    Keeps (configReadNum bus w dev addr timeout) := (configRead_keeps _ _ _ _ _).bind fun _ => Keeps.pure _

theorem configWriteNum_keeps {σ} (bus : Bus σ) (w : Nat) (dev : PcieId) (addr v : Nat) :
    Keeps (configWriteNum bus w dev addr v) := (Keeps.ofOption _).bind fun _ => configWrite_keeps _ _ _ _

theorem capReadDword_keeps {σ} (bus : Bus σ) (ti : TreeInfo) (cap addr : Nat) : Keeps (capReadDword bus ti cap addr) := by
  unfold capReadDword
  split
  · exact configReadNum_keeps _ _ _ _ _
  · exact Keeps.fail

theorem capWriteDword_keeps {σ} (bus : Bus σ) (ti : TreeInfo) (cap addr v : Nat) :
    Keeps (capWriteDword bus ti cap addr v) := by
  unfold capWriteDword
  refine (Keeps.ofOption _).bind fun _ => ?_
  split
  · exact configWrite_keeps _ _ _ _
  · exact Keeps.fail

theorem walkCaps_keeps {σ} (bus : Bus σ) (dev : PcieId) (k : Nat) : ∀ ptr, Keeps (walkCaps bus dev k ptr) := by
  induction k with
  | zero =>
    intro ptr
    rw [walkCaps]
    split
    · exact Keeps.pure _
    · exact Keeps.fail
  | succ k ih =>
    intro ptr
    rw [walkCaps]
    split
    · exact Keeps.pure _
    · exact (configRead_keeps _ _ _ _ _).bind fun _ => (Keeps.ofOption _).bind fun _ => (Keeps.ofOption _).bind fun _ =>
        (ih _).bind fun _ => Keeps.pure _

theorem setupDeviceControl_keeps {σ} (bus : Bus σ) (ti : TreeInfo) : Keeps (setupDeviceControl bus ti) :=
  (capReadDword_keeps _ _ _ _).bind fun _ => (capReadDword_keeps _ _ _ _).bind fun _ => Keeps.get.bind fun _ =>
    capWriteDword_keeps _ _ _ _ _

theorem setupWindows_keeps {σ} (bus : Bus σ) (ti : TreeInfo) : Keeps (setupWindows bus ti) := by
  unfold setupWindows
  repeat' first
    | exact configWrite_keeps _ _ _ _
    | refine Keeps.bind (Keeps.ofOption _) fun _ => ?_
    | refine Keeps.bind (configWrite_keeps _ _ _ _) fun _ => ?_

/-- The BAR records of two items agree, and so do the fields that do not depend on enumeration. -/
def SameBars (ti ti' : TreeInfo) : Prop :=
  ti'.bar = ti.bar ∧ ti'.bar_size = ti.bar_size ∧ ti'.bus_num = ti.bus_num ∧ ti'.device_num = ti.device_num ∧
    ti'.function_num = ti.function_num ∧ ti'.sec_bus_num = ti.sec_bus_num

theorem writeMsiData_keeps {σ} (bus : Bus σ) (ti : TreeInfo) (a b c : Nat) : Keeps (writeMsiData bus ti a b c) := by
  unfold writeMsiData
  split
  · exact (capWriteDword_keeps _ _ _ _ _).bind fun _ => capWriteDword_keeps _ _ _ _ _
  · exact capWriteDword_keeps _ _ _ _ _

theorem enableBusMaster_keeps {σ} (bus : Bus σ) (opts : EnumOpts) (ti : TreeInfo) :
    Keeps (enableBusMaster bus opts ti) := by
  unfold enableBusMaster
  split
  · exact (configReadNum_keeps _ _ _ _ _).bind fun _ => configWriteNum_keeps _ _ _ _ _
  · exact Keeps.pure _

theorem configureMsi_post {σ} (bus : Bus σ) (ti : TreeInfo) (s : Rc σ) :
    Post (configureMsi bus ti) s fun ti' s' => limOf s' = limOf s ∧ SameBars ti ti' := by
  have ha : Keeps (allocMsiRegion : Sim σ Nat) := by
    intro s a s' h
    unfold allocMsiRegion at h
    split at h
    · cases h; rfl
    · cases h; funext sp; cases sp <;> rfl
  unfold configureMsi
  refine Post.bind ((ha s).mono fun msi s1 e1 => ?_)
  split
  · exact Post.pure ⟨e1, rfl, rfl, rfl, rfl, rfl, rfl⟩
  split
  · exact Post.pure ⟨e1, rfl, rfl, rfl, rfl, rfl, rfl⟩
  refine Post.bind ((capReadDword_keeps bus ti _ _ s1).mono fun _ s2 e2 => ?_)
  refine Post.bind ((capWriteDword_keeps bus ti _ _ _ s2).mono fun _ s3 e3 => ?_)
  refine Post.bind (Post.get ?_)
  have e3' : limOf s3 = limOf s := by rw [e3, e2, e1]
  refine Post.bind ((writeMsiData_keeps bus ti _ _ _ s3).mono fun _ s4 e4 => ?_)
  refine Post.bind ((capWriteDword_keeps bus ti _ _ _ s4).mono fun _ s5 e5 => ?_)
  refine Post.bind (Post.get ?_)
  refine Post.bind (Post.set ?_)
  refine Post.pure ⟨?_, rfl, rfl, rfl, rfl, rfl, rfl⟩
  rw [← e3', ← e4, ← e5]
  funext sp; cases sp <;> rfl

end Verif.Proofs
