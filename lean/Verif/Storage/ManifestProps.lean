import Verif.Storage.Manifest
import Verif.Storage.LogProps

/-!
# Properties of the table manifest

C04. `write_metadata` overwrites the file in place, so the theorems quantify over the old contents.
-/

namespace OptiPrism.Storage

open OptiPrism.Proto

/-- The sizes involved can be represented: the encoded manifest is shorter than 2^63 bytes. -/
def Manifest.FitsFile (m : Manifest) : Prop := ∀ b, m.ser = some b → b.length < 2 ^ 63

/-- A column type the table can use: the one decimal and the one timestamp type the code creates. -/
def MType.Usable : MType → Prop
  | .decimal p s => p = 28 ∧ s = 16
  | .timestamp u tz => u = .millisecond ∧ tz = none
  | .other _ => False
  | _ => True

instance (t : MType) : Decidable t.Usable := by
  cases t <;> unfold MType.Usable <;> infer_instance

/-- Every column has a usable type, and the version fits the 32-bit field it is stored in. -/
def Manifest.Storable (m : Manifest) : Prop :=
  (∀ f ∈ m.fields, f.dt.Usable) ∧ m.version.toNat < 2 ^ 32

/-- Whatever the file held before, after a manifest is written the next open reads back that
manifest with its version truncated to 32 bits and its types in their stored form. -/
theorem C04_read_after_write (crc : Bytes → Nat) (hcrc : ∀ b, crc b < 2 ^ 32) (m : Manifest)
    (old : Bytes) (hf : m.FitsFile) (file : Bytes) (hw : writeManifest crc old m = some file) :
    readManifest crc file = .ok m.canon := by
  unfold writeManifest at hw
  obtain ⟨data, hd, rfl⟩ := Option.map_eq_some_iff.mp hw
  have hlen := hf data hd
  have e : overwrite old (frame crc data) =
      toLE 4 (crc data) ++ (toLE 8 data.length ++ (data ++ old.drop (frame crc data).length)) := by
    simp [overwrite, frame, List.append_assoc]
  have hne : overwrite old (frame crc data) ≠ [] := by
    rw [e]; intro h
    have := congrArg List.length h
    simp [toLE_length] at this
  unfold readManifest
  rw [if_neg hne, e, readUpTo_append _ _ (toLE_length _ _)]
  dsimp only
  rw [readUpTo_append _ _ (toLE_length _ _)]
  dsimp only
  rw [fromLE_toLE _ _ (by omega), if_neg (by omega), readUpTo_append _ _ rfl]
  dsimp only
  rw [fromLE_toLE _ _ (by have := hcrc data; omega), if_neg (by simp),
    Manifest.de_ser m data hd (by omega)]

theorem MType.canon_eq_iff (t : MType) (ht : t.tag ≠ none) : t.canon = t ↔ t.Usable := by
  cases t <;> simp [MType.canon, MType.Usable, MType.tag, eq_comm] at *

theorem map_eq_self_iff {α : Type} (f : α → α) (l : List α) :
    l.map f = l ↔ ∀ x ∈ l, f x = x := by
  induction l with
  | nil => simp
  | cons a l ih => simp [ih]

theorem Manifest.ser_some_iff (m : Manifest) :
    (∃ b, m.ser = some b) ↔ ∀ f ∈ m.fields, f.dt.tag ≠ none := by
  unfold Manifest.ser
  have key : ∀ l : List MField, (∃ bs, l.mapM MField.ser = some bs) ↔ ∀ f ∈ l, f.dt.tag ≠ none := by
    intro l
    induction l with
    | nil => simp
    | cons f l ih =>
      rw [List.mapM_cons]
      have hser : f.ser = none ↔ f.dt.tag = none := by simp [MField.ser]
      cases hs : f.ser with
      | none => simp [hser.mp hs]
      | some b =>
        have ht : f.dt.tag ≠ none := fun h => by rw [hser.mpr h] at hs; cases hs
        simp only [Option.bind_eq_bind, Option.bind_some, List.mem_cons, forall_eq_or_imp, ht,
          ne_eq, not_false_eq_true, true_and]
        rw [← ih]
        cases l.mapM MField.ser <;> simp
  rw [← key]
  cases m.fields.mapM MField.ser <;> simp

theorem version_canon_iff (v : U64) : ((v.setWidth 32).setWidth (8 * 8) : U64) = v ↔ v.toNat < 2 ^ 32 := by
  rw [← BitVec.toNat_inj]
  simp only [BitVec.toNat_setWidth]
  have := v.isLt
  omega

/-- C04, exactly: a manifest survives being written over any old file contents and read back if and
only if its columns have the usable types and its version is below 2^32. All other contents (every
key value of every width and sign, every count, every name) are unrestricted. -/
theorem C04_partial (crc : Bytes → Nat) (hcrc : ∀ b, crc b < 2 ^ 32) (m : Manifest) (old : Bytes)
    (hf : m.FitsFile) :
    (∃ file, writeManifest crc old m = some file ∧ readManifest crc file = .ok m) ↔ m.Storable := by
  constructor
  · rintro ⟨file, hw, hr⟩
    rw [C04_read_after_write crc hcrc m old hf file hw] at hr
    injection hr with hr
    have hser : ∃ b, m.ser = some b := by
      unfold writeManifest at hw
      obtain ⟨data, hd, _⟩ := Option.map_eq_some_iff.mp hw
      exact ⟨data, hd⟩
    have htag := m.ser_some_iff.mp hser
    have hv := congrArg Manifest.version hr
    have hfl := congrArg Manifest.fields hr
    refine ⟨fun f hf' => ?_, (version_canon_iff _).mp hv⟩
    have := (map_eq_self_iff _ _).mp hfl f hf'
    exact (MType.canon_eq_iff _ (htag f hf')).mp (congrArg MField.dt this)
  · rintro ⟨ht, hv⟩
    have htag : ∀ f ∈ m.fields, f.dt.tag ≠ none := by
      intro f hf' h
      have := ht f hf'
      cases hdt : f.dt <;> rw [hdt] at h this <;> simp [MType.tag, MType.Usable] at h this
    obtain ⟨data, hd⟩ := m.ser_some_iff.mpr htag
    have hw : writeManifest crc old m = some (overwrite old (frame crc data)) := by
      simp [writeManifest, hd]
    refine ⟨_, hw, ?_⟩
    rw [C04_read_after_write crc hcrc m old hf _ hw]
    have hfl : m.fields.map MField.canon = m.fields := by
      rw [map_eq_self_iff]
      intro f hf'
      have := (MType.canon_eq_iff _ (htag f hf')).mpr (ht f hf')
      cases f; simpa [MField.canon] using this
    have hver := (version_canon_iff m.version).mpr hv
    cases m
    simp only [Manifest.canon] at *
    rw [hfl, hver]

/-- C04 as stated in the property list: every manifest. -/
def C04_full : Prop :=
  ∀ (crc : Bytes → Nat), (∀ b, crc b < 2 ^ 32) → ∀ (m : Manifest) (old : Bytes), m.FitsFile →
    ∃ file, writeManifest crc old m = some file ∧ readManifest crc file = .ok m

def zeroStats : MStats := ⟨0, 0, 0, 0, 0, 0, 0⟩
def zeroOpts : MOptions := ⟨2, true, 7, 4, 0, 0, 0, 0, 0, none, 0, 0, 0, 0, 0⟩

/-- A manifest with a negative 8-bit key, a negative 64-bit key and a string key. -/
def sampleManifest : Manifest :=
  ⟨3, 5, [101, 118], [⟨[97], .int64, false⟩, ⟨[98], .decimal 28 16, true⟩, ⟨[99], .utf8, true⟩],
    [⟨4, [⟨2, 100, 7, [.int8 (-3), .int64 (-1)], [.int8 5, .string [120]]⟩]⟩, ⟨0, []⟩],
    zeroStats, { zeroOpts with mergePageLimit := some 0 }⟩

theorem fits_of {m : Manifest} (h : m.ser.all (fun b => decide (b.length < 2 ^ 63)) = true) :
    m.FitsFile := by
  intro b hb
  rw [hb] at h
  simpa using h

theorem sampleManifest_fits : sampleManifest.FitsFile :=
  fits_of (by decide +kernel)

example : (∃ file, writeManifest crc32 [1, 2, 3] sampleManifest = some file ∧
    readManifest crc32 file = .ok sampleManifest) :=
  (C04_partial crc32 crc32_lt _ _ sampleManifest_fits).mpr (by
    refine ⟨by decide, by decide⟩)

/-- C04 fails for a decimal column whose precision is not the built-in one. -/
theorem C04_violated : ¬ C04_full := by
  intro h
  let m : Manifest := { sampleManifest with fields := [⟨[97], .decimal 10 2, false⟩] }
  have hf : m.FitsFile := fits_of (by decide +kernel)
  have := (C04_partial crc32 crc32_lt m [] hf).mp (h crc32 crc32_lt m [] hf)
  exact absurd (this.1 ⟨[97], .decimal 10 2, false⟩ (by simp [m])) (by decide)

/-- The 33rd bit of the version is lost as well. -/
theorem C04_version_truncated :
    ∃ m : Manifest, m.FitsFile ∧ (∀ f ∈ m.fields, f.dt.Usable) ∧ ∃ file,
      writeManifest crc32 [] m = some file ∧ readManifest crc32 file ≠ .ok m := by
  let m : Manifest := { sampleManifest with version := BitVec.ofNat _ (2 ^ 32 + 3) }
  have hf : m.FitsFile := fits_of (by decide +kernel)
  have hser : ∃ b, m.ser = some b := m.ser_some_iff.mpr (by decide)
  obtain ⟨b, hb⟩ := hser
  refine ⟨m, hf, by decide, overwrite [] (frame crc32 b), by simp [writeManifest, hb], ?_⟩
  intro h
  have := (C04_partial crc32 crc32_lt m [] hf).mp ⟨_, by simp [writeManifest, hb], h⟩
  exact absurd this.2 (by decide)

end OptiPrism.Storage
