import Verif.Sds.SaveProps
import Verif.Arrays.InfoWrong
/-! Where saving and loading go wrong (C153). -/
namespace Riptide.Sds.Save
open Riptide.Nums (Mem memOf Bits HasBits Has AllAt)
open Riptide.Nums.Info (Arg Obj build)
open Riptide.Sds.Save.Spec

/-! ### Byte order -/

/-- One 16-bit integer in the order of bytes which the machine does not have: the number 1. -/
def big : Nums.Arr := ⟨3, ⟨[1], [2], 2⟩, true⟩

/-- Its memory. -/
def bigMem : Mem := memOf 0 [0#8, 1#8]

/-- It is saved. -/
def bigArgs : Args := ⟨[102], [], .items [.array big bigMem], named [([97], 1)], 0, 0, 0, none, none⟩

/-- What is written. -/
def bigInput : Input := ⟨[97, 0, 1], 1, [], [⟨⟨[1], 2, [0, 1]⟩, 3, 3, [2]⟩], false, 0, 0, 1, 0⟩

theorem bigInput_ok : bigInput.Ok toy where
  arrays := by
    intro a ha
    simp only [bigInput, List.mem_cons, List.not_mem_nil, or_false] at ha
    subst ha
    exact ⟨⟨by decide, by decide, by decide⟩, by decide, by decide, by decide, by decide, by decide, by decide, by decide, by decide⟩
  nameCount := by decide
  metaRoom := by decide
  level := by decide
  fileType := by decide
  author := by decide
  bandSize := by decide
  total := by decide

/-- The order of bytes is not kept: an array of another order is saved without a word, and what is loaded has other numbers, here 256 for 1. -/
theorem order_lost : save good bigArgs = .done (some ⟨[102], none, bigInput⟩) false ∧ Bits 2 big bigMem [1] ∧
    ∀ f, writeFile toy bigInput [0] [0] 0 = some f → ∃ b mb, load toy f = .ok [] [some ([97], 1)] [some (b, mb)] ∧ Bits 2 b mb [256] := by
  refine ⟨by decide +kernel, by simp [Bits, big, Mask.Call.Spec.inC, AllAt, HasBits, Has, bigMem, memOf]; decide, fun f hf => ?_⟩
  refine ⟨⟨3, ⟨[1], [2], 2⟩, false⟩, memOf 0 [0#8, 1#8], ?_, ?_⟩
  · rw [load_written toy_lawful bigInput_ok (by decide) (by decide) (by decide) ?_ hf]
    · rfl
    · intro m hm
      have : m = [] := by
        have := packMeta_length hm
        exact List.eq_nil_of_length_eq_zero (Nat.le_zero.1 this)
      subst this
      decide +kernel
  · simp [Bits, Mask.Call.Spec.inC, AllAt, HasBits, Has, memOf]; decide

/-! ### More than five dimensions and objects -/

/-- Six dimensions: the file says five of them, and all bytes are read into the memory of an array with five. -/
theorem six_dims_undefined {o : OutArr} {l : List Nat} (h1 : o.dims ≠ []) (h2 : o.data = some l) (h3 : prod o.dims * o.item < l.length) :
    loadArr o = none := by
  unfold loadArr
  rw [if_neg h1, h2]
  split
  · rfl
  · simp only [if_pos h3]

/-- An array with six dimensions is saved without a word. -/
theorem six_dims_saved : (match save good ⟨[102], [], .items [.array ⟨1, ⟨[2, 1, 1, 1, 1, 3], [3, 3, 3, 3, 3, 1], 1⟩, false⟩
      (memOf 0 [1#8, 2#8, 3#8, 4#8, 5#8, 6#8])], named [([97], 1)], 0, 0, 0, none, none⟩ with
    | .done (some s) false => s.input.arrays.map fun y => ((writeArr toy false 0 y.arr 0).1.dims, y.arr.item, y.arr.data)
    | _ => []) = [([2, 1, 1, 1, 1], 1, [1, 2, 3, 4, 5, 6])] := by decide +kernel

example : loadArr ⟨[2, 1, 1, 1, 1], 1, 1, 1, [3, 3, 3, 3, 3], some [1, 2, 3, 4, 5, 6]⟩ = none :=
  six_dims_undefined (by decide) rfl (by decide)

/-- Objects: their addresses are written, and taken for objects when they are loaded. -/
theorem objects_undefined {o : OutArr} (h1 : o.dims ≠ []) (h2 : o.dtype = 17) : loadArr o = none := by
  unfold loadArr
  rw [if_neg h1, if_pos (by simp [fixType, h2])]

theorem objects_saved : (match save good ⟨[102], [], .items [.array ⟨17, ⟨[1], [8], 8⟩, false⟩
      (memOf 0 [16#8, 0#8, 0#8, 0#8, 0#8, 0#8, 0#8, 0#8])], named [([97], 1)], 0, 0, 0, none, none⟩ with
    | .done (some s) false => s.input.arrays.map fun y => (y.dtype, y.arr.data)
    | _ => []) = [(17, [16, 0, 0, 0, 0, 0, 0, 0])] := by decide +kernel

/-! ### Arrays which are refused: `None` with an exception -/

/-- When an array is refused the call does not stop: it returns `None` although an exception is set, and nothing is saved. -/
theorem refused_answers_none {w : World} {x : Args} {names : List (List Nat × Nat)} (hs : x.sect = none) (hn : w.namesMem = true)
    (hi : nameItems x.names = some names) (hr : (buildNames names).length ≤ namesRoom x.names.length)
    (h : build w.table w.room false true x.arrays = .refused) : save w x = .done none true := by
  unfold save
  rw [hs]
  simp only [saveNames, hi]
  rw [if_neg (by rw [hn]; decide), if_neg (by omega)]
  simp only [saveArrays, h]

/-- Dates (type 21) and whatever is no array are refused so. -/
theorem dates_answer_none (m : Mem) : save good ⟨[102], [], .items [.array ⟨21, ⟨[1], [8], 8⟩, false⟩ m], [], 0, 0, 0, none, none⟩ = .done none true :=
  refused_answers_none (names := []) rfl rfl rfl (Nat.zero_le _) rfl

theorem others_answer_none : save good ⟨[102], [], .other, [], 0, 0, 0, none, none⟩ = .done none true ∧
    save good ⟨[102], [], .items [.other], [], 0, 0, 0, none, none⟩ = .done none true :=
  ⟨refused_answers_none (names := []) rfl rfl rfl (by decide) rfl, refused_answers_none (names := []) rfl rfl rfl (by decide) rfl⟩

/-- One item of an array with a step, `x[::2]` of two items, is contiguous for numpy but refused. -/
theorem one_item_answers_none (m : Mem) : save good ⟨[102], [], .items [.array ⟨1, ⟨[1], [2], 1⟩, false⟩ m], [], 0, 0, 0, none, none⟩ = .done none true :=
  refused_answers_none (names := []) rfl rfl rfl (Nat.zero_le _) rfl

/-- An array without dimensions: a distance is read which it does not have. -/
theorem scalar_undefined (m : Mem) : save good ⟨[102], [], .items [.array ⟨1, ⟨[], [], 1⟩, false⟩ m], [], 0, 0, 0, none, none⟩ = .undefined := rfl

/-- An array of more than one dimension which is contiguous in no order is copied, and saved right. -/
example : (infos good.room 0 [.array ⟨1, ⟨[2, 2], [4, 2], 1⟩, false⟩ (memOf 0 [1#8, 2#8, 3#8, 4#8, 5#8, 6#8, 7#8, 8#8])]).map
    (·.map fun y => (y.arr.dims, y.arr.data, y.strides)) = some [([2, 2], [1, 3, 5, 7], [2, 1])] := by decide +kernel

/-! ### Names -/

/-- Fewer names than arrays: the name of an array is read behind the end of the table. -/
theorem few_names_undefined {o : Out} (h1 : o.names ≠ []) (h2 : o.nameCount < o.arrays.length) : loadOut o = .undefined := by
  unfold loadOut
  split
  · rw [if_pos ⟨h1, h2⟩]
  · rfl

theorem few_names_saved : (match save good ⟨[102], [], .items [.pyNone, .pyNone], named [([97], 1)], 0, 0, 0, none, none⟩ with
    | .done (some s) false => some (s.input.names, s.input.nameCount, s.input.arrays.length)
    | _ => none) = some ([97, 0, 1], 1, 2) := by decide +kernel

/-- A name which is no tuple of bytes is skipped but counted: the list which is loaded ends in null pointers, and the names are not those of the arrays. -/
theorem skipped_name_wrong : nameItems [.other, .named [98] (some 1)] = some [([98], 1)] ∧
    loadNames ⟨0, buildNames [([98], 1)], 2, some [], []⟩ = some [some ([98], 1), none] := by decide

/-- Only the lowest byte of a value is kept; a value which has no room in 64 bits, and what is no integer, is 255. -/
theorem value_cut_wrong : valueByte (some 256) = 0 ∧ valueByte (some 257) = 1 ∧ valueByte (some (-1)) = 255 ∧ valueByte (some (2 ^ 63)) = 255 ∧
    valueByte none = 255 := by decide

/-- A value which is no integer: the file is saved, and the call returns `None` with an exception. -/
theorem value_type_saved : (match save good ⟨[102], [], .items [], [.named [97] none], 0, 0, 0, none, none⟩ with
    | .done (some s) pending => some (s.input.names, pending)
    | _ => none) = some ([97, 0, 255], true) := by decide +kernel

/-- A name ends at its first zero. -/
theorem name_cut_wrong : (nameItems [.named [97, 0, 98] (some 1)]).map buildNames = some [97, 0, 1] := by decide

/-- Names which need more than 300 bytes each and 8 are written behind the memory. -/
theorem long_names_undefined {w : World} {x : Args} {names : List (List Nat × Nat)} (hs : x.sect = none) (hn : w.namesMem = true)
    (hx : x.names = named names) (h : ∀ e ∈ names, (∀ b ∈ e.1, b ≠ 0) ∧ e.2 < 256)
    (hr : 298 * names.length + 8 < (names.map fun e => e.1.length).sum) : save w x = .undefined := by
  have hc : x.names.length = names.length := by rw [hx]; simp [named]
  have h1 : nameItems x.names = some names := by rw [hx]; exact nameItems_named names fun e he => (h e he).2
  have h2 : ¬ (buildNames names).length ≤ namesRoom names.length := fun q => by
    have := (names_room_iff names fun e he => (h e he).1).1 q
    omega
  unfold save
  rw [hs]
  simp only [saveNames, h1, hc]
  rw [if_neg (by rw [hn]; decide), if_pos (by omega)]

example : ∀ e ∈ [(List.replicate 307 97, 1)], (∀ b ∈ e.1, b ≠ 0) ∧ e.2 < 256 := by
  intro e he
  simp only [List.mem_cons, List.not_mem_nil, or_false] at he
  subst he
  exact ⟨fun b hb => by rw [List.eq_of_mem_replicate hb]; decide, by decide⟩

/-- A tuple which is too short is read behind its end. -/
theorem short_tuple_undefined (w : World) (x : Args) (hs : x.sect = none) (hn : w.namesMem = true) (hx : x.names = [.short]) : save w x = .undefined := by
  unfold save
  rw [hs]
  simp only [saveNames, hx, nameItems]
  rw [if_neg (by rw [hn]; decide)]

/-! ### Keywords, metadata and the file -/

/-- The bytes of a band: at least 10000, and none if they are negative or have no room in 64 bits. -/
theorem band_size : bandOf (some 1) = 10000 ∧ bandOf (some 20000) = 20000 ∧ bandOf (some (-5)) = 0 ∧ bandOf none = 0 := by decide

/-- A band size which has no room: the file is saved without bands, and the call returns `None` with an exception. -/
theorem band_room_saved : (match save good ⟨[102], [], .items [], [], 0, 0, 0, some (2 ^ 63), none⟩ with
    | .done (some s) pending => some (s.input.bandSize, pending)
    | _ => none) = some (0, true) := by decide +kernel

/-- A section with a character which is not ASCII: `strlen` of a null pointer. -/
theorem section_undefined (w : World) (x : Args) {s : List Nat} (hs : x.sect = some s) {ch : Nat} (h : ch ∈ s) (h1 : 128 ≤ ch) : save w x = .undefined := by
  unfold save
  rw [hs]
  simp only
  rw [if_pos (List.any_eq_true.2 ⟨ch, h, by simpa using h1⟩)]

/-- A section of 64 characters is refused; one of 63 is taken. -/
theorem section_long_refused : save good ⟨[102], [], .items [], [], 0, 0, 0, none, some (List.replicate 64 97)⟩ = .error ∧
    (match save good ⟨[102], [], .items [], [], 0, 0, 0, none, some (List.replicate 63 97)⟩ with
      | .done (some s) false => s.sect
      | _ => none) = some (List.replicate 63 97) := by decide +kernel

/-- A section ends at its first zero, and so does the name of the file. -/
theorem zero_cut_wrong : (match save good ⟨[102, 0, 103], [], .items [], [], 0, 0, 0, none, some [97, 0, 98]⟩ with
    | .done (some s) false => some (s.file, s.sect)
    | _ => none) = some ([102], some [97]) := by decide +kernel

/-- Of metadata of 4 GiB nothing is kept. -/
theorem metadata_lost (x : Args) (names : List (List Nat × Nat)) (l : List ArrIn) (h : x.metaData.length = 2 ^ 32) : (inputOf x names l).metaData = [] := by
  show x.metaData.take (x.metaData.length % 2 ^ 32) = []
  rw [h]
  rfl

/-- A level is cut to 16 bits. -/
theorem level_cut : (inputOf ⟨[102], [], .items [], [], 1, -1, 65537, none, none⟩ [] []).level = 65535 ∧
    (inputOf ⟨[102], [], .items [], [], 1, -1, 65537, none, none⟩ [] []).fileType = 1 := by decide

/-- A file which cannot be opened and whose name has `%s` in it: the message is taken for a format, and an argument is read which is not there. -/
theorem percent_undefined : save { good with trouble := some [110, 111] } ⟨[37, 115], [], .items [], [], 0, 0, 0, none, none⟩ = .undefined ∧
    save { good with trouble := some [110, 111] } ⟨[37, 37, 115], [], .items [], [], 0, 0, 0, none, none⟩ = .error ∧
    save { good with trouble := some [110, 111] } ⟨[37, 37, 37, 115], [], .items [], [], 0, 0, 0, none, none⟩ = .undefined ∧
    save { good with trouble := some [110, 111] } ⟨[102], [], .items [], [], 0, 0, 0, none, none⟩ = .error := by
  refine ⟨by decide +kernel, by decide +kernel, by decide +kernel, by decide +kernel⟩

/-! ### Without memory -/

/-- Without memory for the names: `NULL` without an exception. -/
theorem no_names_memory : save { good with namesMem := false } bigArgs = .silent := rfl

/-- Without memory for the entries or for the descriptions: null pointers are written to; without arrays the call returns `None` and nothing is saved. -/
theorem no_memory : save { good with table := false } bigArgs = .undefined ∧ save { good with infoMem := false } bigArgs = .undefined ∧
    save { good with table := false } ⟨[102], [], .items [], [], 0, 0, 0, none, none⟩ = .done none false := by
  refine ⟨by decide +kernel, by decide +kernel, by decide +kernel⟩

/-- Without memory for a copy the call returns `None` with an exception. -/
theorem no_copy_memory : save { good with room := fun _ => false } threeArgs = .done none true :=
  refused_answers_none (names := [([97], 1), ([98], 0), ([99, 100], 255)]) rfl rfl (by decide) (by decide) rfl

end Riptide.Sds.Save
