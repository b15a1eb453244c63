import Verif.Options
import Verif.Strm
/-!
# Properties C33, C34, C35: options for `drpm_make`
-/

namespace Drpm

/-! ## What the options should be (specification) -/

/-- A compression method the library knows. -/
def KnownComp (zstd : Bool) (c : Nat) : Prop := c ≤ 5 ∨ (zstd = true ∧ c = 6)

instance (zstd : Bool) (c : Nat) : Decidable (KnownComp zstd c) := inferInstanceAs (Decidable (_ ∨ _))

/-- The documented defaults (src/drpm.h:347, 359, 399 and 148): a standard delta in format V3,
    compressed like the new RPM, with an add block compressed by bzip2 at its default level, no
    files, no limit on memory. -/
def documentedDefaults : Opts Bytes :=
  { rpmOnly := false, version := 3, compFromRpm := true, comp := 65535, compLevel := 0, addblk := true,
    addblkComp := 2, addblkLevel := 0, seqfile := none, oldrpmprint := none, oldpatchrpm := none, mbytes := 0 }

/-- Changing the object behind a handle. -/
def sOn (w : OWorld Bytes) (h : Nat) (valid : Prop) [Decidable valid] (f : Opts Bytes → Opts Bytes) :
    Option Err × OWorld Bytes :=
  match w h with
  | none => (some .args, w)
  | some o => if valid then (none, fun k => if k = h then some (f o) else w k) else (some .args, w)

/-- What each call should do when memory is available; option strings are just strings. -/
def specCall (zstd : Bool) (w : OWorld Bytes) : OCall → Option Err × OWorld Bytes
  | .init h _ => (none, fun k => if k = h then some documentedDefaults else w k)
  | .destroy h => (none, fun k => if k = h then none else w k)
  | .defaults h => sOn w h True (fun _ => documentedDefaults)
  | .copy dst src _ _ _ =>
    match w src with
    | none => (some .args, w)
    | some o => sOn w dst True (fun _ => o)
  | .type h t => sOn w h (t = 0 ∨ t = 1) (fun o => { o with rpmOnly := decide (t = 1) })
  | .version h v => sOn w h (1 ≤ v ∧ v ≤ 3) (fun o => { o with version := v })
  | .deltaComp h c l => sOn w h (KnownComp zstd c ∧ l ≤ 9) (fun o => { o with compFromRpm := false, comp := c, compLevel := l })
  | .compFromRpm h => sOn w h True (fun o => { o with compFromRpm := true })
  | .forbidAddblk h => sOn w h True (fun o => { o with addblk := false })
  | .addblkComp h c l => sOn w h (KnownComp zstd c ∧ l ≤ 9) (fun o => { o with addblk := true, addblkComp := c, addblkLevel := l })
  | .seqfile h s _ => sOn w h True (fun o => { o with seqfile := s })
  | .patches h a b _ _ => sOn w h (a.isSome = true ∧ b.isSome = true) (fun o => { o with oldrpmprint := a, oldpatchrpm := b })
  | .memlimit h n => sOn w h True (fun o => { o with mbytes := n })

def specCalls (zstd : Bool) : OWorld Bytes → List OCall → List (Option Err) × OWorld Bytes
  | w, [] => ([], w)
  | w, c :: cs => ((specCall zstd w c).1 :: (specCalls zstd (specCall zstd w c).2 cs).1, (specCalls zstd (specCall zstd w c).2 cs).2)

/-- The options as a user sees them: the strings in the buffers. -/
def Opts.view (o : Opts CBuf) : Opts Bytes :=
  { rpmOnly := o.rpmOnly, version := o.version, compFromRpm := o.compFromRpm, comp := o.comp, compLevel := o.compLevel,
    addblk := o.addblk, addblkComp := o.addblkComp, addblkLevel := o.addblkLevel, mbytes := o.mbytes,
    seqfile := o.seqfile.bind CBuf.str, oldrpmprint := o.oldrpmprint.bind CBuf.str,
    oldpatchrpm := o.oldpatchrpm.bind CBuf.str }

def viewWorld (w : OWorld CBuf) : OWorld Bytes := fun h => (w h).map Opts.view

/-- All allocations of the call succeed. -/
def OCall.memOk : OCall → Bool
  | .init _ m => m
  | .copy _ _ m1 m2 m3 => m1 && m2 && m3
  | .seqfile _ _ m => m
  | .patches _ _ _ m1 m2 => m1 && m2
  | _ => true

/-- Not an object copied onto itself. -/
def OCall.notSelf : OCall → Bool
  | .copy d s _ _ _ => d != s
  | _ => true

/-- The user does not destroy through a NULL handle. -/
def Careful (zstd : Bool) : OWorld CBuf → List OCall → Prop
  | _, [] => True
  | w, c :: cs => (∀ h, c = .destroy h → w h ≠ none) ∧ ∀ e w', ocall zstd w c = .ok (e, w') → Careful zstd w' cs

def noOpts {S : Type} : OWorld S := fun _ => none

/-! ## Invariants -/

/-- A buffer holds a string and has room for it. -/
def BufOk (p : Option CBuf) : Prop := ∀ b, p = some b → ∃ s, b.str = some s ∧ s.length + 1 ≤ b.cap

def StrsOk (o : Opts CBuf) : Prop := BufOk o.seqfile ∧ BufOk o.oldrpmprint ∧ BufOk o.oldpatchrpm

def WorldOk (w : OWorld CBuf) : Prop := ∀ h o, w h = some o → StrsOk o

theorem bufOk_none : BufOk none := by intro b h; cases h

theorem bufOk_some {b : CBuf} {s : Bytes} (h1 : b.str = some s) (h2 : s.length + 1 ≤ b.cap) : BufOk (some b) := by
  intro b' h; cases h; exact ⟨s, h1, h2⟩

theorem growBuf_spec {p : Option CBuf} (hp : BufOk p) (s : Bytes) (mem : Bool) :
    ∃ r, growBuf p s mem = .ok r ∧ (mem = true → r ≠ none) ∧
      ∀ b, r = some b → s.length + 1 ≤ b.cap ∧ (p.isSome = true → BufOk (some b)) := by
  cases p with
  | none =>
    refine ⟨_, rfl, by intro h; simp [h], ?_⟩
    intro b hb
    cases mem with
    | false => cases hb
    | true => cases hb; exact ⟨Nat.le_refl _, by simp⟩
  | some b0 =>
    obtain ⟨t, h1, h2⟩ := hp b0 rfl
    unfold growBuf strlen
    simp only [h1]
    refine ⟨_, rfl, ?_, ?_⟩
    · intro h; simp only [h]; split <;> simp
    · intro b hb
      split at hb
      · rename_i hl
        cases mem with
        | false => cases hb
        | true =>
          cases hb
          exact ⟨Nat.le_refl _, fun _ => bufOk_some (s := t) rfl (by simp only; omega)⟩
      · cases hb
        exact ⟨by omega, fun _ => hp⟩

theorem strcpy_ok {b : CBuf} {s : Bytes} (h : s.length + 1 ≤ b.cap) : strcpy b s = .ok { b with str := some s } := by
  unfold strcpy; rw [if_pos h]

theorem dupStr_spec {p : Option CBuf} (hp : BufOk p) (mem : Bool) :
    ∃ r, dupStr p mem = .ok r ∧ (mem = true → r ≠ none) ∧
      ∀ q, r = some q → BufOk q ∧ q.bind CBuf.str = p.bind CBuf.str := by
  cases p with
  | none => exact ⟨_, rfl, by simp, fun q hq => by cases hq; exact ⟨bufOk_none, rfl⟩⟩
  | some b =>
    obtain ⟨t, h1, h2⟩ := hp b rfl
    unfold dupStr strlen
    simp only [h1, Out.bind_ok, Option.getD_some]
    cases mem with
    | false => exact ⟨none, rfl, by simp, fun q hq => by cases hq⟩
    | true =>
      rw [if_pos rfl, strcpy_ok (by simp), Out.bind_ok]
      refine ⟨_, rfl, by simp, ?_⟩
      intro q hq
      cases hq
      exact ⟨bufOk_some (s := t) rfl (by simp), by simp [h1]⟩

theorem copyStrings_spec {dst src : Opts CBuf} (hs : StrsOk src)
    (hd : dst.seqfile = none ∧ dst.oldrpmprint = none ∧ dst.oldpatchrpm = none) (m1 m2 m3 : Bool) :
    ∃ o, copyStrings dst src m1 m2 m3 = .ok o ∧ StrsOk o ∧
      o.rpmOnly = dst.rpmOnly ∧ o.version = dst.version ∧ o.compFromRpm = dst.compFromRpm ∧ o.comp = dst.comp ∧
      o.compLevel = dst.compLevel ∧ o.addblk = dst.addblk ∧ o.addblkComp = dst.addblkComp ∧
      o.addblkLevel = dst.addblkLevel ∧ o.mbytes = dst.mbytes ∧
      ((m1 && m2 && m3) = true → o.seqfile.bind CBuf.str = src.seqfile.bind CBuf.str ∧
        o.oldrpmprint.bind CBuf.str = src.oldrpmprint.bind CBuf.str ∧
        o.oldpatchrpm.bind CBuf.str = src.oldpatchrpm.bind CBuf.str) := by
  obtain ⟨hs1, hs2, hs3⟩ := hs
  obtain ⟨hd1, hd2, hd3⟩ := hd
  have z1 : BufOk dst.seqfile := hd1 ▸ bufOk_none
  have z2 : BufOk dst.oldrpmprint := hd2 ▸ bufOk_none
  have z3 : BufOk dst.oldpatchrpm := hd3 ▸ bufOk_none
  obtain ⟨r1, a1, a2, a3⟩ := dupStr_spec hs1 m1
  obtain ⟨r2, b1, b2, b3⟩ := dupStr_spec hs2 m2
  obtain ⟨r3, c1, c2, c3⟩ := dupStr_spec hs3 m3
  unfold copyStrings
  rw [a1, Out.bind_ok]
  cases r1 with
  | none =>
    refine ⟨_, rfl, ⟨z1, z2, z3⟩, rfl, rfl, rfl, rfl, rfl, rfl, rfl, rfl, rfl, ?_⟩
    intro h
    simp only [Bool.and_eq_true] at h
    exact absurd rfl (a2 h.1.1)
  | some q1 =>
    simp only
    rw [b1, Out.bind_ok]
    obtain ⟨a4, a5⟩ := a3 q1 rfl
    cases r2 with
    | none =>
      refine ⟨_, rfl, ⟨a4, z2, z3⟩, rfl, rfl, rfl, rfl, rfl, rfl, rfl, rfl, rfl, ?_⟩
      intro h
      simp only [Bool.and_eq_true] at h
      exact absurd rfl (b2 h.1.2)
    | some q2 =>
      simp only
      rw [c1, Out.bind_ok]
      obtain ⟨b4, b5⟩ := b3 q2 rfl
      cases r3 with
      | none =>
        refine ⟨_, rfl, ⟨a4, b4, z3⟩, rfl, rfl, rfl, rfl, rfl, rfl, rfl, rfl, rfl, ?_⟩
        intro h
        simp only [Bool.and_eq_true] at h
        exact absurd rfl (c2 h.2)
      | some q3 =>
        obtain ⟨c4, c5⟩ := c3 q3 rfl
        exact ⟨_, rfl, ⟨a4, b4, c4⟩, rfl, rfl, rfl, rfl, rfl, rfl, rfl, rfl, rfl, fun _ => ⟨a5, b5, c5⟩⟩

theorem copyOpts_spec {src : Opts CBuf} (hs : StrsOk src) (same m1 m2 m3 : Bool) :
    ∃ o, copyOpts src same m1 m2 m3 = .ok o ∧ StrsOk o ∧
      ((m1 && m2 && m3) = true → same = false → o.view = src.view) ∧
      o.version = src.version ∧ o.compFromRpm = src.compFromRpm ∧ o.comp = src.comp ∧ o.compLevel = src.compLevel ∧
      o.addblkComp = src.addblkComp ∧ o.addblkLevel = src.addblkLevel := by
  unfold copyOpts
  obtain ⟨o, a1, a2, a3, a4, a5, a6, a7, a8, a9, a10, a11, a12⟩ := copyStrings_spec
    (dst := { src with seqfile := none, oldrpmprint := none, oldpatchrpm := none })
    (src := if same then { src with seqfile := none, oldrpmprint := none, oldpatchrpm := none } else src)
    (by cases same
        · exact hs
        · exact ⟨bufOk_none, bufOk_none, bufOk_none⟩) ⟨rfl, rfl, rfl⟩ m1 m2 m3
  refine ⟨o, a1, a2, ?_, a4, a5, a6, a7, a9, a10⟩
  intro hm hsame
  obtain ⟨b1, b2, b3⟩ := a12 hm
  subst hsame
  simp only [Bool.false_eq_true, if_false] at b1 b2 b3
  unfold Opts.view
  simp only [a3, a4, a5, a6, a7, a8, a9, a10, a11, b1, b2, b3]

theorem worldOk_set {w : OWorld CBuf} (h : WorldOk w) {k : Nat} {o : Opts CBuf} (ho : StrsOk o) : WorldOk (w.set k (some o)) := by
  intro j p hp
  unfold OWorld.set at hp
  split at hp
  · cases hp; exact ho
  · exact h j p hp

theorem worldOk_unset {w : OWorld CBuf} (h : WorldOk w) {k : Nat} : WorldOk (w.set k none) := by
  intro j p hp
  unfold OWorld.set at hp
  split at hp
  · cases hp
  · exact h j p hp

/-- A call that keeps the strings. -/
theorem onHandle_ok {w : OWorld CBuf} (h : WorldOk w) (k : Nat) (f : Opts CBuf → Option Err × Opts CBuf)
    (hf : ∀ o, StrsOk o → StrsOk (f o).2) : ∃ e w', onHandle w k f = .ok (e, w') ∧ WorldOk w' := by
  unfold onHandle
  cases hk : w k with
  | none => exact ⟨_, _, rfl, h⟩
  | some o => exact ⟨_, _, rfl, worldOk_set h (hf o (h k o hk))⟩

theorem setSeqfile_spec {o : Opts CBuf} (ho : StrsOk o) (s : Option Bytes) (mem : Bool) :
    ∃ e o', setSeqfile o s mem = .ok (e, o') ∧ StrsOk o' ∧
      ((e = some .memory ∧ mem = false ∧ o' = o) ∨ (e = none ∧ o'.view = { o.view with seqfile := s })) := by
  obtain ⟨h1, h2, h3⟩ := ho
  cases s with
  | none => exact ⟨_, _, rfl, ⟨bufOk_none, h2, h3⟩, .inr ⟨rfl, rfl⟩⟩
  | some s =>
    obtain ⟨r, a1, a2, a3⟩ := growBuf_spec h1 s mem
    unfold setSeqfile
    simp only
    rw [a1, Out.bind_ok]
    cases r with
    | none =>
      refine ⟨_, _, rfl, ⟨h1, h2, h3⟩, .inl ⟨rfl, ?_, rfl⟩⟩
      cases mem with
      | false => rfl
      | true => exact absurd rfl (a2 rfl)
    | some b =>
      simp only
      rw [strcpy_ok (a3 b rfl).1, Out.bind_ok]
      exact ⟨_, _, rfl, ⟨bufOk_some (s := s) rfl (a3 b rfl).1, h2, h3⟩, .inr ⟨rfl, rfl⟩⟩

theorem addPatches_spec {o : Opts CBuf} (ho : StrsOk o) (a b : Option Bytes) (m1 m2 : Bool)
    (hm : m2 = true ∨ o.oldrpmprint.isSome = true) :
    ∃ e o', addPatches o a b m1 m2 = .ok (e, o') ∧ StrsOk o' ∧
      ((e = some .args ∧ o' = o ∧ ¬(a.isSome = true ∧ b.isSome = true)) ∨
       (e = some .memory ∧ (m1 && m2) = false ∧ o'.view = o.view) ∨
       (e = none ∧ (a.isSome = true ∧ b.isSome = true) ∧ o'.view = { o.view with oldrpmprint := a, oldpatchrpm := b })) := by
  obtain ⟨h1, h2, h3⟩ := ho
  cases a with
  | none => exact ⟨_, _, rfl, ⟨h1, h2, h3⟩, .inl ⟨rfl, rfl, by simp⟩⟩
  | some s1 =>
    cases b with
    | none => exact ⟨_, _, rfl, ⟨h1, h2, h3⟩, .inl ⟨rfl, rfl, by simp⟩⟩
    | some s2 =>
      obtain ⟨r1, a1, a2, a3⟩ := growBuf_spec h2 s1 m1
      unfold addPatches
      simp only
      rw [a1, Out.bind_ok]
      cases r1 with
      | none =>
        refine ⟨_, _, rfl, ⟨h1, h2, h3⟩, .inr (.inl ⟨rfl, ?_, rfl⟩)⟩
        cases m1 with
        | false => rfl
        | true => exact absurd rfl (a2 rfl)
      | some b1 =>
        simp only
        obtain ⟨r2, c1, c2, c3⟩ := growBuf_spec h3 s2 m2
        rw [c1, Out.bind_ok]
        cases r2 with
        | none =>
          have hm2 : m2 = false := by
            cases m2 with
            | false => rfl
            | true => exact absurd rfl (c2 rfl)
          have hsome : o.oldrpmprint.isSome = true := by
            rcases hm with hm | hm
            · rw [hm2] at hm; cases hm
            · exact hm
          refine ⟨_, _, rfl, ⟨h1, (a3 b1 rfl).2 hsome, h3⟩, .inr (.inl ⟨rfl, by simp [hm2], ?_⟩)⟩
          cases ho : o.oldrpmprint with
          | none => rw [ho] at hsome; cases hsome
          | some b0 =>
            have : b1.str = b0.str := by
              rw [ho] at a1
              unfold growBuf at a1
              cases hs0 : strlen b0 with
              | ok l =>
                simp only [hs0, Out.bind_ok, Out.ok.injEq] at a1
                split at a1
                · split at a1
                  · cases a1; rfl
                  · cases a1
                · cases a1; rfl
              | err e => simp only [hs0] at a1; cases a1
              | ub => simp only [hs0] at a1; cases a1
              | loop => simp only [hs0] at a1; cases a1
            unfold Opts.view
            simp [ho, this]
        | some b2 =>
          simp only
          rw [strcpy_ok (a3 b1 rfl).1, Out.bind_ok, strcpy_ok (c3 b2 rfl).1, Out.bind_ok]
          exact ⟨_, _, rfl, ⟨h1, bufOk_some (s := s1) rfl (a3 b1 rfl).1, bufOk_some (s := s2) rfl (c3 b2 rfl).1⟩,
            .inr (.inr ⟨rfl, ⟨rfl, rfl⟩, rfl⟩)⟩

/-- The calls whose failing allocation can leave a buffer without a string in it. -/
def OCall.badPatches (w : OWorld CBuf) : OCall → Prop
  | .patches h _ _ _ m2 => m2 = false ∧ ∃ o, w h = some o ∧ o.oldrpmprint = none
  | _ => False

theorem view_congr {w : OWorld CBuf} {k : Nat} {o : Opts CBuf} (_ : w k = some o) {o' : Opts CBuf} :
    viewWorld (w.set k (some o')) = fun j => if j = k then some o'.view else viewWorld w j := by
  funext j
  unfold viewWorld OWorld.set
  by_cases h : j = k
  · simp [h]
  · simp [h]

theorem set_same {w : OWorld CBuf} {k : Nat} {o : Opts CBuf} (hk : w k = some o) : w.set k (some o) = w := by
  funext j
  unfold OWorld.set
  by_cases h : j = k
  · simp [h, hk]
  · simp [h]

theorem onHandle_spec {w : OWorld CBuf} (k : Nat) (f : Opts CBuf → Option Err × Opts CBuf)
    (valid : Prop) [Decidable valid] (g : Opts Bytes → Opts Bytes)
    (h1 : ∀ o, valid → (f o).1 = none ∧ (f o).2.view = g o.view)
    (h2 : ∀ o, ¬valid → f o = (some .args, o)) :
    ∃ w', onHandle w k f = .ok ((sOn (viewWorld w) k valid g).1, w') ∧ viewWorld w' = (sOn (viewWorld w) k valid g).2 := by
  unfold onHandle sOn
  cases hk : w k with
  | none =>
    have : viewWorld w k = none := by unfold viewWorld; rw [hk]; rfl
    simp only [this]
    exact ⟨_, rfl, rfl⟩
  | some o =>
    have : viewWorld w k = some o.view := by unfold viewWorld; rw [hk]; rfl
    simp only [this]
    by_cases hv : valid
    · simp only [if_pos hv]
      obtain ⟨a, b⟩ := h1 o hv
      refine ⟨_, by rw [a], ?_⟩
      rw [view_congr hk, b]
    · simp only [if_neg hv, h2 o hv]
      exact ⟨_, rfl, by rw [set_same hk]⟩

theorem compOk_iff (zstd : Bool) (c : Nat) : compOk zstd c = true ↔ KnownComp zstd c := by
  unfold compOk KnownComp
  cases zstd <;> simp

theorem levelOk_iff (l : Nat) : levelOk l = true ↔ l ≤ 9 := by
  unfold levelOk
  simp
  omega

/-- One call does not do anything undefined and keeps the invariant. -/
theorem ocall_safe (zstd : Bool) {w : OWorld CBuf} (hw : WorldOk w) (c : OCall) (hd : ∀ h, c = .destroy h → w h ≠ none)
    (hb : ¬ c.badPatches w) : ∃ e w', ocall zstd w c = .ok (e, w') ∧ WorldOk w' := by
  cases c with
  | init h m =>
    cases m with
    | false => exact ⟨_, _, rfl, worldOk_unset hw⟩
    | true => exact ⟨_, _, rfl, worldOk_set hw ⟨bufOk_none, bufOk_none, bufOk_none⟩⟩
  | destroy h =>
    simp only [ocall]
    cases hk : w h with
    | none => exact absurd hk (hd h rfl)
    | some o => exact ⟨_, _, rfl, worldOk_unset hw⟩
  | defaults h => exact onHandle_ok hw h _ (fun _ _ => ⟨bufOk_none, bufOk_none, bufOk_none⟩)
  | copy d s m1 m2 m3 =>
    simp only [ocall]
    cases hd : w d with
    | none => exact ⟨_, _, rfl, hw⟩
    | some x =>
      cases hs : w s with
      | none => exact ⟨_, _, rfl, hw⟩
      | some y =>
        obtain ⟨o, a1, a2, _⟩ := copyOpts_spec (hw s y hs) (d = s) m1 m2 m3
        simp only
        rw [a1, Out.bind_ok]
        exact ⟨_, _, rfl, worldOk_set hw a2⟩
  | type h t => exact onHandle_ok hw h _ (fun o ho => by unfold setType; split; exact ho; split <;> exact ho)
  | version h v => exact onHandle_ok hw h _ (fun o ho => by unfold setVersion; split <;> exact ho)
  | deltaComp h c l => exact onHandle_ok hw h _ (fun o ho => by unfold setDeltaComp; split; exact ho; split <;> exact ho)
  | compFromRpm h => exact onHandle_ok hw h _ (fun o ho => ho)
  | forbidAddblk h => exact onHandle_ok hw h _ (fun o ho => ho)
  | addblkComp h c l => exact onHandle_ok hw h _ (fun o ho => by unfold setAddblkComp; split; exact ho; split <;> exact ho)
  | memlimit h n => exact onHandle_ok hw h _ (fun o ho => ho)
  | seqfile h s m =>
    simp only [ocall, onHandleM]
    cases hk : w h with
    | none => exact ⟨_, _, rfl, hw⟩
    | some o =>
      obtain ⟨e, o', a1, a2, _⟩ := setSeqfile_spec (hw h o hk) s m
      simp only
      rw [a1, Out.bind_ok]
      exact ⟨_, _, rfl, worldOk_set hw a2⟩
  | patches h a b m1 m2 =>
    simp only [ocall, onHandleM]
    cases hk : w h with
    | none => exact ⟨_, _, rfl, hw⟩
    | some o =>
      have hm : m2 = true ∨ o.oldrpmprint.isSome = true := by
        cases m2 with
        | true => exact .inl rfl
        | false =>
          right
          cases ho : o.oldrpmprint with
          | none => exact absurd ⟨rfl, o, hk, ho⟩ hb
          | some x => rfl
      obtain ⟨e, o', a1, a2, _⟩ := addPatches_spec (hw h o hk) a b m1 m2 hm
      simp only
      rw [a1, Out.bind_ok]
      exact ⟨_, _, rfl, worldOk_set hw a2⟩

/-- One call with memory available does what it should. -/
theorem ocall_refines (zstd : Bool) {w : OWorld CBuf} (hw : WorldOk w) (c : OCall) (hd : ∀ h, c = .destroy h → w h ≠ none)
    (hm : c.memOk = true) (hn : c.notSelf = true) :
    ∃ w', ocall zstd w c = .ok ((specCall zstd (viewWorld w) c).1, w') ∧ viewWorld w' = (specCall zstd (viewWorld w) c).2 := by
  cases c with
  | init h m =>
    simp only [OCall.memOk] at hm
    subst hm
    refine ⟨_, rfl, ?_⟩
    funext j
    simp only [specCall, viewWorld, OWorld.set]
    by_cases hj : j = h
    · simp [hj, Opts.view, defaultOpts, documentedDefaults]
    · simp [hj]
  | destroy h =>
    simp only [ocall]
    cases hk : w h with
    | none => exact absurd hk (hd h rfl)
    | some o =>
      refine ⟨_, rfl, ?_⟩
      funext j
      simp only [specCall, viewWorld, OWorld.set]
      by_cases hj : j = h
      · simp [hj]
      · simp [hj]
  | defaults h => exact onHandle_spec h _ True _ (fun o _ => ⟨rfl, rfl⟩) (fun o hv => absurd trivial hv)
  | copy d s m1 m2 m3 =>
    simp only [OCall.notSelf, bne_iff_ne, ne_eq] at hn
    simp only [OCall.memOk] at hm
    simp only [ocall, specCall]
    cases hs : w s with
    | none =>
      have : viewWorld w s = none := by unfold viewWorld; rw [hs]; rfl
      simp only [this]
      cases hd : w d <;> exact ⟨_, rfl, rfl⟩
    | some y =>
      have : viewWorld w s = some y.view := by unfold viewWorld; rw [hs]; rfl
      simp only [this, sOn]
      cases hd : w d with
      | none =>
        have : viewWorld w d = none := by unfold viewWorld; rw [hd]; rfl
        simp only [this]
        exact ⟨_, rfl, rfl⟩
      | some x =>
        have : viewWorld w d = some x.view := by unfold viewWorld; rw [hd]; rfl
        simp only [this]
        obtain ⟨o, a1, a2, a3, _⟩ := copyOpts_spec (hw s y hs) (d = s) m1 m2 m3
        rw [a1, Out.bind_ok, if_pos trivial]
        refine ⟨_, rfl, ?_⟩
        rw [view_congr hd, a3 hm (by simpa using hn)]
  | type h t =>
    refine onHandle_spec h _ _ _ ?_ ?_
    · intro o hv
      unfold setType
      rcases hv with hv | hv
      · rw [if_pos hv]; exact ⟨rfl, by simp [Opts.view, hv]⟩
      · rw [if_neg (by omega), if_pos hv]; exact ⟨rfl, by simp [Opts.view, hv]⟩
    · intro o hv
      unfold setType
      rw [if_neg (by omega), if_neg (by omega)]
  | version h v =>
    refine onHandle_spec h _ _ _ ?_ ?_
    · intro o hv
      unfold setVersion
      rw [if_neg (by omega)]
      exact ⟨rfl, rfl⟩
    · intro o hv
      unfold setVersion
      rw [if_pos (by omega)]
  | deltaComp h c l =>
    refine onHandle_spec h _ _ _ ?_ ?_
    · intro o hv
      unfold setDeltaComp
      rw [if_neg (by rw [(levelOk_iff l).mpr hv.2]; simp), if_pos ((compOk_iff _ _).mpr hv.1)]
      exact ⟨rfl, rfl⟩
    · intro o hv
      unfold setDeltaComp
      split
      · rfl
      · rename_i hl
        rw [if_neg]
        intro hc
        exact hv ⟨(compOk_iff _ _).mp hc, (levelOk_iff l).mp (by simpa using hl)⟩
  | compFromRpm h => exact onHandle_spec h _ True _ (fun o _ => ⟨rfl, rfl⟩) (fun o hv => absurd trivial hv)
  | forbidAddblk h => exact onHandle_spec h _ True _ (fun o _ => ⟨rfl, rfl⟩) (fun o hv => absurd trivial hv)
  | addblkComp h c l =>
    refine onHandle_spec h _ _ _ ?_ ?_
    · intro o hv
      unfold setAddblkComp
      rw [if_neg (by rw [(levelOk_iff l).mpr hv.2]; simp), if_pos ((compOk_iff _ _).mpr hv.1)]
      exact ⟨rfl, rfl⟩
    · intro o hv
      unfold setAddblkComp
      split
      · rfl
      · rename_i hl
        rw [if_neg]
        intro hc
        exact hv ⟨(compOk_iff _ _).mp hc, (levelOk_iff l).mp (by simpa using hl)⟩
  | memlimit h n => exact onHandle_spec h _ True _ (fun o _ => ⟨rfl, rfl⟩) (fun o hv => absurd trivial hv)
  | seqfile h s m =>
    simp only [OCall.memOk] at hm
    simp only [ocall, onHandleM, specCall, sOn]
    cases hk : w h with
    | none =>
      have : viewWorld w h = none := by unfold viewWorld; rw [hk]; rfl
      simp only [this]
      exact ⟨_, rfl, rfl⟩
    | some o =>
      have : viewWorld w h = some o.view := by unfold viewWorld; rw [hk]; rfl
      simp only [this]
      obtain ⟨e, o', a1, a2, a3⟩ := setSeqfile_spec (hw h o hk) s m
      rw [a1, Out.bind_ok, if_pos trivial]
      rcases a3 with ⟨_, a3, _⟩ | ⟨rfl, a3⟩
      · rw [hm] at a3; cases a3
      · exact ⟨_, rfl, by rw [view_congr hk, a3]⟩
  | patches h a b m1 m2 =>
    simp only [OCall.memOk] at hm
    simp only [ocall, onHandleM, specCall, sOn]
    cases hk : w h with
    | none =>
      have : viewWorld w h = none := by unfold viewWorld; rw [hk]; rfl
      simp only [this]
      exact ⟨_, rfl, rfl⟩
    | some o =>
      have : viewWorld w h = some o.view := by unfold viewWorld; rw [hk]; rfl
      simp only [this]
      have hm' := hm
      simp only [Bool.and_eq_true] at hm'
      obtain ⟨e, o', a1, a2, a3⟩ := addPatches_spec (hw h o hk) a b m1 m2 (.inl hm'.2)
      rw [a1, Out.bind_ok]
      rcases a3 with ⟨rfl, rfl, a4⟩ | ⟨_, a3, _⟩ | ⟨rfl, a4, a3⟩
      · rw [if_neg a4]
        exact ⟨_, rfl, by rw [set_same hk]⟩
      · rw [hm] at a3; cases a3
      · rw [if_pos a4]
        exact ⟨_, rfl, by rw [view_congr hk, a3]⟩

/-! ## C34 -/

/-- C34. Whatever options are set, copied, reset and destroyed in whatever order: no write goes past
    the end of a buffer (nothing undefined happens), every call returns the code it should, and the
    options, strings included, are what was set last. Conditions: memory is available, no object is
    copied onto itself (`C35_violated_self`), and no NULL handle is destroyed
    (`C33_violated_destroy`). -/
theorem C34_strings (zstd : Bool) (cs : List OCall) : ∀ (w : OWorld CBuf), WorldOk w → Careful zstd w cs →
    (∀ c ∈ cs, c.memOk = true ∧ c.notSelf = true) →
    ∃ w', ocalls zstd w cs = .ok ((specCalls zstd (viewWorld w) cs).1, w') ∧
      viewWorld w' = (specCalls zstd (viewWorld w) cs).2 := by
  induction cs with
  | nil => intro w _ _ _; exact ⟨w, rfl, rfl⟩
  | cons c cs ih =>
    intro w hw hc hm
    obtain ⟨hm1, hm2⟩ := hm c (by simp)
    obtain ⟨w1, a1, a2⟩ := ocall_refines zstd hw c hc.1 hm1 hm2
    have hb : ¬ c.badPatches w := by
      intro hb
      cases c with
      | patches h a b m1 m2 => simp [OCall.memOk, OCall.badPatches] at hm1 hb; rw [hm1.2] at hb; cases hb.1
      | _ => exact hb
    obtain ⟨e, w1', b1, b2⟩ := ocall_safe zstd hw c hc.1 hb
    rw [a1] at b1
    cases b1
    obtain ⟨w2, c1, c2⟩ := ih w1 b2 (hc.2 _ _ a1) (fun x hx => hm x (by simp [hx]))
    rw [a2] at c1 c2
    rw [ocalls, a1, Out.bind_ok]
    simp only
    rw [c1, Out.bind_ok]
    exact ⟨w2, rfl, c2⟩

/-- C34 from the start: no objects exist. -/
theorem C34_from_start (zstd : Bool) (cs : List OCall) (hc : Careful zstd noOpts cs)
    (hm : ∀ c ∈ cs, c.memOk = true ∧ c.notSelf = true) :
    ∃ w', ocalls zstd noOpts cs = .ok ((specCalls zstd noOpts cs).1, w') ∧
      viewWorld w' = (specCalls zstd noOpts cs).2 :=
  C34_strings zstd cs noOpts (fun _ _ h => by cases h) hc hm

/-- Histories in which the second allocation of `drpm_make_options_add_patches` never fails while
    the first name is not set. -/
def NoBadPatches (zstd : Bool) : OWorld CBuf → List OCall → Prop
  | _, [] => True
  | w, c :: cs => ¬ c.badPatches w ∧ ∀ e w', ocall zstd w c = .ok (e, w') → NoBadPatches zstd w' cs

/-- C34 when memory runs out: still no write past the end of a buffer, whichever allocations fail,
    except for the case of `C33_violated_patches`. -/
theorem C34_safe_partial (zstd : Bool) (cs : List OCall) : ∀ (w : OWorld CBuf), WorldOk w → Careful zstd w cs →
    NoBadPatches zstd w cs → ∃ es w', ocalls zstd w cs = .ok (es, w') ∧ WorldOk w' := by
  induction cs with
  | nil => intro w hw _ _; exact ⟨_, _, rfl, hw⟩
  | cons c cs ih =>
    intro w hw hc hb
    obtain ⟨e, w1, b1, b2⟩ := ocall_safe zstd hw c hc.1 hb.1
    obtain ⟨es, w2, c1, c2⟩ := ih w1 b2 (hc.2 _ _ b1) (hb.2 _ _ b1)
    rw [ocalls, b1, Out.bind_ok]
    simp only
    rw [c1, Out.bind_ok]
    exact ⟨_, _, rfl, c2⟩

/-- A history that meets the conditions: names set, replaced by longer and shorter ones, copied,
    cleared. -/
def demoCalls : List OCall :=
  [.init 0 true, .seqfile 0 (some [97, 98]) true, .seqfile 0 (some [99]) true, .seqfile 0 (some [100, 101, 102]) true,
   .patches 0 (some [112]) (some [113, 114]) true true, .patches 0 none (some [113]) true true, .init 1 true,
   .copy 1 0 true true true, .seqfile 0 none true, .version 1 9, .version 1 2, .deltaComp 1 4 9, .deltaComp 1 4 10,
   .destroy 0, .type 0 1]

example : Out.okAnd (ocalls true noOpts demoCalls) (fun r =>
    r.1 = [none, none, none, none, none, some .args, none, none, none, some .args, none, none, some .args, none, some .args] ∧
    (r.2 1).bind (fun o => o.seqfile) = some ⟨4, some [100, 101, 102]⟩) = true := by decide +kernel

def destroyOk (w : OWorld CBuf) : OCall → Bool
  | .destroy h => (w h).isSome
  | _ => true

/-- `Careful`, decided. -/
def carefulB (zstd : Bool) : OWorld CBuf → List OCall → Bool
  | _, [] => true
  | w, c :: cs => destroyOk w c &&
      (match ocall zstd w c with | .ok (_, w') => carefulB zstd w' cs | _ => true)

theorem carefulB_careful (zstd : Bool) (cs : List OCall) : ∀ w, carefulB zstd w cs = true → Careful zstd w cs := by
  induction cs with
  | nil => intro w _; trivial
  | cons c cs ih =>
    intro w h
    rw [carefulB, Bool.and_eq_true] at h
    refine ⟨?_, ?_⟩
    · intro k hk hn
      subst hk
      simp [destroyOk, hn] at h
    · intro e w' he
      rw [he] at h
      exact ih w' h.2

example : Careful true noOpts demoCalls ∧ ∀ c ∈ demoCalls, c.memOk = true ∧ c.notSelf = true :=
  ⟨carefulB_careful _ _ _ (by decide +kernel), by decide +kernel⟩

/-! ## C33 -/

/-- Options `drpm_make` can work with. -/
structure ValidOpts {S : Type} (zstd : Bool) (o : Opts S) : Prop where
  version : 1 ≤ o.version ∧ o.version ≤ 3
  comp : o.compFromRpm = true ∨ KnownComp zstd o.comp
  level : o.compLevel ≤ 9
  addblkComp : KnownComp zstd o.addblkComp
  addblkLevel : o.addblkLevel ≤ 9

theorem valid_default {S : Type} (zstd : Bool) : ValidOpts (S := S) zstd defaultOpts :=
  ⟨by simp [defaultOpts], .inl rfl, by simp [defaultOpts], .inl (by simp [defaultOpts]), by simp [defaultOpts]⟩

theorem onHandle_valid {zstd : Bool} {w w' : OWorld CBuf} {k : Nat} {f : Opts CBuf → Option Err × Opts CBuf} {e : Option Err}
    (hv : ∀ h o, w h = some o → ValidOpts zstd o) (h : onHandle w k f = .ok (e, w'))
    (hf : ∀ o, ValidOpts zstd o → ValidOpts zstd (f o).2) : ∀ h o, w' h = some o → ValidOpts zstd o := by
  unfold onHandle at h
  cases hk : w k with
  | none => rw [hk] at h; cases h; exact hv
  | some o =>
    rw [hk] at h
    cases h
    intro j p hp
    unfold OWorld.set at hp
    split at hp
    · cases hp; exact hf o (hv k o hk)
    · exact hv j p hp

theorem valid_strs {zstd : Bool} {o o' : Opts CBuf} (hv : ValidOpts zstd o) (h : o'.version = o.version ∧
    o'.compFromRpm = o.compFromRpm ∧ o'.comp = o.comp ∧ o'.compLevel = o.compLevel ∧ o'.addblkComp = o.addblkComp ∧
    o'.addblkLevel = o.addblkLevel) : ValidOpts zstd o' := by
  obtain ⟨h1, h2, h3, h4, h5, h6⟩ := h
  exact ⟨h1 ▸ hv.version, by rw [h2, h3]; exact hv.comp, h4 ▸ hv.level, h5 ▸ hv.addblkComp, h6 ▸ hv.addblkLevel⟩

theorem set_valid {zstd : Bool} {w : OWorld CBuf} (hv : ∀ h o, w h = some o → ValidOpts zstd o) {k : Nat} {q : Option (Opts CBuf)}
    (hq : ∀ o, q = some o → ValidOpts zstd o) : ∀ h o, (w.set k q) h = some o → ValidOpts zstd o := by
  intro j p hp
  unfold OWorld.set at hp
  split at hp
  · exact hq p hp
  · exact hv j p hp

theorem setSeqfile_rest {o o' : Opts CBuf} {s : Option Bytes} {m : Bool} {e : Option Err}
    (h : setSeqfile o s m = .ok (e, o')) : ∃ q, o' = { o with seqfile := q } := by
  unfold setSeqfile at h
  cases s with
  | none => cases h; exact ⟨_, rfl⟩
  | some s =>
    simp only [Out.bind_eq_ok] at h
    obtain ⟨r, _, h⟩ := h
    cases r with
    | none => cases h; exact ⟨_, rfl⟩
    | some b =>
      simp only [Out.bind_eq_ok] at h
      obtain ⟨_, _, h⟩ := h
      cases h
      exact ⟨_, rfl⟩

theorem addPatches_rest {o o' : Opts CBuf} {a b : Option Bytes} {m1 m2 : Bool} {e : Option Err}
    (h : addPatches o a b m1 m2 = .ok (e, o')) : ∃ q r, o' = { o with oldrpmprint := q, oldpatchrpm := r } := by
  unfold addPatches at h
  split at h
  · simp only [Out.bind_eq_ok] at h
    obtain ⟨r, _, h⟩ := h
    cases r with
    | none => cases h; exact ⟨_, _, rfl⟩
    | some b =>
      simp only [Out.bind_eq_ok] at h
      obtain ⟨r2, _, h⟩ := h
      cases r2 with
      | none => cases h; exact ⟨_, _, rfl⟩
      | some b =>
        simp only [Out.bind_eq_ok] at h
        obtain ⟨_, _, _, _, h⟩ := h
        cases h
        exact ⟨_, _, rfl⟩
  · cases h; exact ⟨_, _, rfl⟩

theorem copyStrings_rest {d s o : Opts CBuf} {m1 m2 m3 : Bool} (h : copyStrings d s m1 m2 m3 = .ok o) :
    ∃ p q r, o = { d with seqfile := p, oldrpmprint := q, oldpatchrpm := r } := by
  unfold copyStrings at h
  simp only [Out.bind_eq_ok] at h
  obtain ⟨r, _, h⟩ := h
  cases r with
  | none => cases h; exact ⟨_, _, _, rfl⟩
  | some b =>
    simp only [Out.bind_eq_ok] at h
    obtain ⟨r2, _, h⟩ := h
    cases r2 with
    | none => cases h; exact ⟨_, _, _, rfl⟩
    | some b =>
      simp only [Out.bind_eq_ok] at h
      obtain ⟨r3, _, h⟩ := h
      cases r3 with
      | none => cases h; exact ⟨_, _, _, rfl⟩
      | some b => cases h; exact ⟨_, _, _, rfl⟩

theorem ocall_valid {zstd : Bool} {w w' : OWorld CBuf} {c : OCall} {e : Option Err}
    (hv : ∀ h o, w h = some o → ValidOpts zstd o) (h : ocall zstd w c = .ok (e, w')) :
    ∀ h o, w' h = some o → ValidOpts zstd o := by
  cases c with
  | init k m =>
    cases m with
    | false => cases h; exact set_valid hv (fun o ho => by cases ho)
    | true => cases h; exact set_valid hv (fun o ho => by cases ho; exact valid_default zstd)
  | destroy k =>
    simp only [ocall] at h
    split at h
    · cases h
    · cases h; exact set_valid hv (fun o ho => by cases ho)
  | defaults k => exact onHandle_valid hv h (fun o _ => valid_default zstd)
  | copy d s m1 m2 m3 =>
    simp only [ocall] at h
    split at h
    · rename_i _ y _ hs
      rw [Out.bind_eq_ok] at h
      obtain ⟨o, a1, h⟩ := h
      cases h
      refine set_valid hv (fun o' ho => ?_)
      cases ho
      unfold copyOpts at a1
      obtain ⟨p, q, r, rfl⟩ := copyStrings_rest a1
      exact valid_strs (hv s y hs) ⟨rfl, rfl, rfl, rfl, rfl, rfl⟩
    · cases h; exact hv
  | type k t => exact onHandle_valid hv h (fun o ho => by
      unfold setType; split
      · exact valid_strs ho ⟨rfl, rfl, rfl, rfl, rfl, rfl⟩
      · split
        · exact valid_strs ho ⟨rfl, rfl, rfl, rfl, rfl, rfl⟩
        · exact ho)
  | version k v => exact onHandle_valid hv h (fun o ho => by
      unfold setVersion; split
      · exact ho
      · exact ⟨by simp only; omega, ho.comp, ho.level, ho.addblkComp, ho.addblkLevel⟩)
  | deltaComp k c l => exact onHandle_valid hv h (fun o ho => by
      unfold setDeltaComp; split
      · exact ho
      · rename_i hl
        split
        · rename_i hc
          exact ⟨ho.version, .inr ((compOk_iff _ _).mp hc), (levelOk_iff l).mp (by simpa using hl), ho.addblkComp, ho.addblkLevel⟩
        · exact ho)
  | compFromRpm k => exact onHandle_valid hv h (fun o ho => ⟨ho.version, .inl rfl, ho.level, ho.addblkComp, ho.addblkLevel⟩)
  | forbidAddblk k => exact onHandle_valid hv h (fun o ho => valid_strs ho ⟨rfl, rfl, rfl, rfl, rfl, rfl⟩)
  | addblkComp k c l => exact onHandle_valid hv h (fun o ho => by
      unfold setAddblkComp; split
      · exact ho
      · rename_i hl
        split
        · rename_i hc
          exact ⟨ho.version, ho.comp, ho.level, (compOk_iff _ _).mp hc, (levelOk_iff l).mp (by simpa using hl)⟩
        · exact ho)
  | memlimit k n => exact onHandle_valid hv h (fun o ho => valid_strs ho ⟨rfl, rfl, rfl, rfl, rfl, rfl⟩)
  | seqfile k s m =>
    simp only [ocall, onHandleM] at h
    split at h
    · cases h; exact hv
    · rename_i o hk
      rw [Out.bind_eq_ok] at h
      obtain ⟨⟨e', o'⟩, a1, h⟩ := h
      cases h
      obtain ⟨q, rfl⟩ := setSeqfile_rest a1
      exact set_valid hv (fun p hp => by cases hp; exact valid_strs (hv k o hk) ⟨rfl, rfl, rfl, rfl, rfl, rfl⟩)
  | patches k a b m1 m2 =>
    simp only [ocall, onHandleM] at h
    split at h
    · cases h; exact hv
    · rename_i o hk
      rw [Out.bind_eq_ok] at h
      obtain ⟨⟨e', o'⟩, a1, h⟩ := h
      cases h
      obtain ⟨q, r, rfl⟩ := addPatches_rest a1
      exact set_valid hv (fun p hp => by cases hp; exact valid_strs (hv k o hk) ⟨rfl, rfl, rfl, rfl, rfl, rfl⟩)

theorem ocalls_valid (zstd : Bool) (cs : List OCall) : ∀ (w w' : OWorld CBuf) (es : List (Option Err)),
    (∀ h o, w h = some o → ValidOpts zstd o) → ocalls zstd w cs = .ok (es, w') →
    ∀ h o, w' h = some o → ValidOpts zstd o := by
  induction cs with
  | nil => intro w w' es hv h; cases h; exact hv
  | cons c cs ih =>
    intro w w' es hv h
    rw [ocalls, Out.bind_eq_ok] at h
    obtain ⟨⟨e, w1⟩, a1, h⟩ := h
    simp only [Out.bind_eq_ok] at h
    obtain ⟨⟨es', w2⟩, a2, h⟩ := h
    cases h
    exact ih w1 _ _ (ocall_valid hv a1) a2

/-- C33, validity: after any calls with any arguments, whichever allocations fail, all options are
    valid. -/
theorem C33_valid (zstd : Bool) (cs : List OCall) (es : List (Option Err)) (w : OWorld CBuf)
    (h : ocalls zstd noOpts cs = .ok (es, w)) : ∀ k o, w k = some o → ValidOpts zstd o :=
  ocalls_valid zstd cs noOpts w es (fun _ _ h => by cases h) h

/-- Valid levels and methods are accepted by the compression streams. -/
theorem C33_usable (zstd : Bool) (o : Opts CBuf) (h : ValidOpts zstd o) :
    compOpen o.addblkComp o.addblkLevel = .usable ∧ (o.compFromRpm = false → compOpen o.comp o.compLevel = .usable) := by
  have hk : ∀ c l : Nat, KnownComp zstd c → l ≤ 9 → compOpen c l = .usable := by
    intro c l hc hl
    have hi : csInitOk c l = true := by
      unfold csInitOk
      rw [decide_eq_true_eq]
      rcases hc with hc | ⟨_, hc⟩
      · exact ⟨by omega, by omega⟩
      · exact ⟨by omega, by omega⟩
    unfold compOpen
    rw [if_neg (by rw [hi]; decide), if_pos (by omega)]
  refine ⟨hk _ _ h.addblkComp h.addblkLevel, fun hf => ?_⟩
  rcases h.comp with hc | hc
  · rw [hf] at hc; cases hc
  · exact hk _ _ hc h.level

/-- C33, errors: a call that reports an error leaves all options as they were, except that a failed
    `drpm_make_options_init` leaves NULL, and except for `drpm_make_options_add_patches` running out
    of memory half way. -/
theorem C33_error_unchanged_partial (zstd : Bool) (w w' : OWorld CBuf) (hw : WorldOk w) (c : OCall) (e : Err)
    (h : ocall zstd w c = .ok (some e, w')) (hi : ∀ k m, c ≠ .init k m) (hb : ¬ c.badPatches w) :
    viewWorld w' = viewWorld w := by
  have hd : ∀ k, c = .destroy k → w k ≠ none := by
    intro k hk hn
    subst hk
    simp only [ocall] at h
    rw [hn] at h
    cases h
  have key : ∀ (k : Nat) (f : Opts CBuf → Option Err × Opts CBuf), (∀ o e, (f o).1 = some e → (f o).2 = o) →
      onHandle w k f = .ok (some e, w') → viewWorld w' = viewWorld w := by
    intro k f hf h
    unfold onHandle at h
    cases hk : w k with
    | none => rw [hk] at h; cases h; rfl
    | some o =>
      rw [hk] at h
      simp only [Out.ok.injEq, Prod.mk.injEq] at h
      rw [← h.2, hf o e h.1, set_same hk]
  cases c with
  | init k m => exact absurd rfl (hi k m)
  | destroy k =>
    simp only [ocall] at h
    split at h <;> cases h
  | defaults k => exact key k _ (fun o e h => by cases h) h
  | copy d s m1 m2 m3 =>
    simp only [ocall] at h
    split at h
    · rw [Out.bind_eq_ok] at h
      obtain ⟨o, _, h⟩ := h
      cases h
    · cases h; rfl
  | type k t => exact key k (fun o => setType o t) (fun o e h => by
      unfold setType at h ⊢; split at h
      · cases h
      · split at h
        · cases h
        · rename_i h1 h2
          rw [if_neg h1, if_neg h2]) h
  | version k v =>
    refine key k (fun o => setVersion o v) (fun o e h => ?_) h
    unfold setVersion at h ⊢
    split at h
    · rename_i h1
      rw [if_pos h1]
    · cases h
  | deltaComp k c l => exact key k (fun o => setDeltaComp zstd o c l) (fun o e h => by
      unfold setDeltaComp at h ⊢; split at h
      · rename_i h1
        rw [if_pos h1]
      · rename_i h1
        split at h
        · cases h
        · rename_i h2
          rw [if_neg h1, if_neg h2]) h
  | compFromRpm k => exact key k _ (fun o e h => by cases h) h
  | forbidAddblk k => exact key k _ (fun o e h => by cases h) h
  | addblkComp k c l => exact key k (fun o => setAddblkComp zstd o c l) (fun o e h => by
      unfold setAddblkComp at h ⊢; split at h
      · rename_i h1
        rw [if_pos h1]
      · rename_i h1
        split at h
        · cases h
        · rename_i h2
          rw [if_neg h1, if_neg h2]) h
  | memlimit k n => exact key k _ (fun o e h => by cases h) h
  | seqfile k s m =>
    simp only [ocall, onHandleM] at h
    cases hk : w k with
    | none => simp only [hk] at h; cases h; rfl
    | some o =>
      simp only [hk] at h
      obtain ⟨e', o', a1, a2, a3⟩ := setSeqfile_spec (hw k o hk) s m
      rw [a1, Out.bind_ok] at h
      simp only [Out.ok.injEq, Prod.mk.injEq] at h
      obtain ⟨rfl, rfl⟩ := h
      rcases a3 with ⟨_, _, rfl⟩ | ⟨h, _⟩
      · rw [set_same hk]
      · cases h
  | patches k a b m1 m2 =>
    simp only [ocall, onHandleM] at h
    cases hk : w k with
    | none => simp only [hk] at h; cases h; rfl
    | some o =>
      simp only [hk] at h
      have hm : m2 = true ∨ o.oldrpmprint.isSome = true := by
        cases m2 with
        | true => exact .inl rfl
        | false =>
          right
          cases ho : o.oldrpmprint with
          | none => exact absurd ⟨rfl, o, hk, ho⟩ hb
          | some x => rfl
      obtain ⟨e', o', a1, a2, a3⟩ := addPatches_spec (hw k o hk) a b m1 m2 hm
      rw [a1, Out.bind_ok] at h
      simp only [Out.ok.injEq, Prod.mk.injEq] at h
      obtain ⟨rfl, rfl⟩ := h
      rcases a3 with ⟨_, rfl, _⟩ | ⟨_, _, a3⟩ | ⟨h, _⟩
      · rw [set_same hk]
      · rw [view_congr hk, a3]
        funext j
        by_cases hj : j = k
        · simp [hj, viewWorld, hk]
        · simp [hj]
      · cases h

/-- The exception is real: when the second allocation fails, the first name becomes a buffer with
    nothing written to it, and setting the names again reads it. -/
theorem C33_violated_patches :
    (∃ w, ocalls true noOpts [.init 0 true, .patches 0 (some [97]) (some [98]) true false] = .ok ([none, some .memory], w) ∧
      (w 0).map (fun o => o.oldrpmprint) = some (some ⟨2, none⟩)) ∧
    ocalls true noOpts [.init 0 true, .patches 0 (some [97]) (some [98]) true false,
      .patches 0 (some [97]) (some [98]) true true] = .ub := by
  refine ⟨⟨_, rfl, rfl⟩, rfl⟩

/-- Destroying through a NULL handle follows the NULL pointer, although the other functions report
    bad arguments. -/
theorem C33_violated_destroy : ocalls true noOpts [.init 0 true, .destroy 0, .destroy 0] = .ub ∧
    ocalls true noOpts [.destroy 0] = .ub := ⟨rfl, rfl⟩

/-! ## C35 -/

example : WorldOk (noOpts.set 0 (some { (defaultOpts : Opts CBuf) with seqfile := some ⟨9, some [97, 98]⟩ })) := by
  intro h o ho
  unfold OWorld.set at ho
  split at ho
  · cases ho; exact ⟨bufOk_some (s := [97, 98]) rfl (by decide), bufOk_none, bufOk_none⟩
  · cases ho

/-- C35, defaults: `drpm_make` without options works with the same settings as with options just
    initialised, and with options reset to their defaults whatever they were before. -/
theorem C35_defaults (zstd : Bool) :
    (∃ c, makeOpts none = .ok (documentedDefaults.rpmOnly, c) ∧ c.view = documentedDefaults) ∧
    (∀ w h w' e, ocall zstd w (.init h true) = .ok (e, w') → makeOpts (w' h) = makeOpts none) ∧
    (∀ w h w', ocall zstd w (.defaults h) = .ok (none, w') → makeOpts (w' h) = makeOpts none) := by
  refine ⟨⟨_, rfl, rfl⟩, ?_, ?_⟩
  · intro w h w' e hc
    cases hc
    simp [OWorld.set]
    rfl
  · intro w h w' hc
    simp only [ocall, onHandle] at hc
    cases hk : w h with
    | none => simp only [hk] at hc; cases hc
    | some o => simp only [hk] at hc; cases hc; simp [OWorld.set]; rfl

/-- C35, copies: after a copy the destination has the settings of the source, and so has the local
    copy `drpm_make` makes. -/
theorem C35_copy (zstd : Bool) (w : OWorld CBuf) (hw : WorldOk w) (dst src : Nat) (hne : dst ≠ src) (o : Opts CBuf)
    (hs : w src = some o) (hd : w dst ≠ none) :
    (∃ w', ocall zstd w (.copy dst src true true true) = .ok (none, w') ∧
      viewWorld w' dst = some o.view ∧ ∀ k, k ≠ dst → viewWorld w' k = viewWorld w k) ∧
    ∃ c, makeOpts (some o) = .ok (o.rpmOnly, c) ∧ c.view = o.view := by
  constructor
  · obtain ⟨w', a1, a2⟩ := ocall_refines zstd hw (.copy dst src true true true) (fun h hh => by cases hh) rfl
      (by simpa [OCall.notSelf] using hne)
    have e1 : viewWorld w src = some o.view := by unfold viewWorld; rw [hs]; rfl
    have e2 : ∃ x, viewWorld w dst = some x := by
      unfold viewWorld
      cases hk : w dst with
      | none => exact absurd hk hd
      | some x => exact ⟨_, rfl⟩
    obtain ⟨x, e2⟩ := e2
    simp only [specCall, e1, sOn, e2, if_pos] at a1 a2
    refine ⟨w', a1, ?_, ?_⟩
    · rw [a2]; simp
    · intro k hk
      rw [a2]; simp [hk]
  · obtain ⟨c, a1, a2, a3, _⟩ := copyOpts_spec (hw src o hs) false true true true
    unfold makeOpts
    simp only
    rw [a1, Out.bind_ok]
    exact ⟨c, rfl, a3 rfl rfl⟩

/-- Copying options onto themselves loses the strings, although it reports success. -/
theorem C35_violated_self : ∃ w, ocalls true noOpts [.init 0 true, .seqfile 0 (some [97]) true, .copy 0 0 true true true] =
      .ok ([none, none, none], w) ∧ (w 0).map (fun o => o.seqfile) = some none :=
  ⟨_, rfl, rfl⟩

/-- A copy that runs out of memory reports success, too. -/
theorem C35_violated_memory : ∃ w, ocalls true noOpts [.init 0 true, .seqfile 0 (some [97]) true, .init 1 true,
      .copy 1 0 false true true] = .ok ([none, none, none, none], w) ∧
      (w 1).map (fun o => o.seqfile) = some none ∧ (w 0).map (fun o => o.seqfile) = some (some ⟨2, some [97]⟩) :=
  ⟨_, rfl, rfl, rfl⟩

end Drpm
