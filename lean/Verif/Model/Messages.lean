import Verif.Model.Module

/-!
# The texts of the errors of `get_signing_block`

Whether a module counts as unsigned or as damaged is decided by looking for words in the text of the error
(`file_formats/module/mod.rs:283-284`, `signable.rs:390-393`). The rest of the model only keeps which check failed
(`Err`, `Err.isMissing`); here are the texts. The numbers in them (sizes, positions) come from the file and are not tracked: any
digits may stand in their place, which allows for more texts than the program can produce.
-/

namespace Ksusig

/-- A piece of a `format!` string: fixed text, or `{}` filled with an unsigned number. -/
inductive Piece where
  | lit (s : String)
  | num
  deriving DecidableEq, Repr

/-- The texts a `format!` string can produce. -/
def Filled : List Piece → List Char → Prop
  | [], m => m = []
  | .lit s :: t, m => ∃ r, m = s.toList ++ r ∧ Filled t r
  | .num :: t, m => ∃ d r, d ≠ [] ∧ (∀ c ∈ d, c.isDigit = true) ∧ m = d ++ r ∧ Filled t r

/-- The text in front of errors of `parse_full_block` (`signing_block/mod.rs:440,468`). -/
def fullBlockText : Piece := .lit "Error parsing full block: "

/-- The text in front of errors of `extract_values` (`signing_block/mod.rs:583`). -/
def valuesText : Piece := .lit "Error extracting values: "

/-- The end of the messages about the magic (`signing_block/mod.rs:480-484,509-513`). -/
def magicText : String :=
  "Magic not found\nMAGIC is '[75, 83, 85, 32, 83, 105, 103, 32, 66, 108, 111, 99, 107, 32, 52, 50]' (as [u8]) or 'KSU Sig Block 42' (as string)"

/-- The texts of the errors `Module::get_signing_block` can return (`file_formats/module/mod.rs:73-99`), with the prefixes added on the
way. `None` branches that slices of sufficient length cannot reach are included. The errors of `File::open`, and of the operating
system in general, are not. -/
def Err.texts : Err → List (List Piece)
  -- `utils.rs:43,50-55,87-91,109-113,131-135`
  | .outOfBounds => [[.lit "Error: position overflow: ", .num, .lit " + ", .num],
      [.lit "Error: out of bounds: ", .num, .lit "..", .num, .lit " (len: ", .num, .lit ")"],
      [.lit "Error: out of bounds reading u16 between ", .num, .lit " and ", .num],
      [.lit "Error: out of bounds reading u32 between ", .num, .lit " and ", .num],
      [.lit "Error: out of bounds reading u64 between ", .num, .lit " and ", .num]].map ([fullBlockText, valuesText] ++ ·)
  -- `signing_block/mod.rs:143-146`
  | .pairTooLarge => [[fullBlockText, valuesText, .lit "Pair size ", .num, .lit " exceeds maximum allowed size ", .num,
      .lit " (potential DoS attack)"]]
  -- `signing_block/mod.rs:154-157`
  | .pairTooSmall => [[fullBlockText, valuesText, .lit "Error: pair_size ", .num, .lit " is less than 4 (pair_id size)"]]
  -- `common.rs:444`
  | .invalidSize => [[fullBlockText, valuesText, .lit "Invalid size"]]
  -- `elf_section_info.rs:61`, with the two texts of `std::str::Utf8Error`
  | .invalidUtf8 => [[fullBlockText, valuesText, .lit "Invalid section name: invalid utf-8 sequence of ", .num, .lit " bytes from index ", .num],
      [fullBlockText, valuesText, .lit "Invalid section name: incomplete utf-8 byte sequence from index ", .num]]
  -- `signing_block/mod.rs:492-496,501-505,517-521,530-534,575-579`
  | .tooShort => [[fullBlockText, .lit "Error: data length ", .num, .lit " is less than ", .num,
        .lit " (size of u64 + size of u64 + size of magic number)"],
      [fullBlockText, .lit "Error: data length ", .num, .lit " is less than ", .num, .lit " (size of magic number)"],
      [fullBlockText, .lit "Error: data length ", .num, .lit " is less than ", .num, .lit " (size of u64)"]]
  -- `signing_block/mod.rs:480-484,509-513`
  | .magicNotFound => [[.lit "from_reader(): ", .lit magicText], [fullBlockText, .lit "parse_full_block(): ", .lit magicText]]
  -- `signing_block/mod.rs:540-543`
  | .sizeMismatch => [[fullBlockText, .lit "Error: start_block_size ", .num, .lit " is different from end_block_size ", .num]]
  -- `signing_block/mod.rs:550-553`
  | .blockTooSmall => [[fullBlockText, .lit "Error: block_size ", .num, .lit " is too small (minimum is ", .num, .lit ")"]]
  -- `signing_block/mod.rs:564-569`
  | .lengthMismatch => [[fullBlockText, .lit "Error: block_size ", .num, .lit " inconsistent with data length ", .num,
      .lit " (expected ", .num, .lit ")"]]
  -- `signing_block/mod.rs:398-401`
  | .blockTooLarge => [[.lit "Signing block size ", .num, .lit " exceeds maximum allowed size ", .num, .lit " (potential DoS attack)"]]
  -- `signing_block/mod.rs:406-409`
  | .blockExceedsFile => [[.lit "Signing block size ", .num, .lit " exceeds file length ", .num, .lit " (corrupted or malicious file)"]]
  -- `signing_block/mod.rs:423-426,456-458`
  | .beyondData => [[.lit "Error: block size ", .num, .lit " is larger than available data"],
      [.lit "Error: cannot extract full block from window"]]
  -- `signing_block/mod.rs:362-364`
  | .fileTooSmall => [[.lit "File too small to contain signing block"]]
  -- `std::io::Read::read_exact`
  | .unexpectedEof => [[.lit "failed to fill whole buffer"]]
  -- `zip.rs:71-74`
  | .notZip => [[.lit "File too small for valid ZIP"]]
  -- `zip.rs:114`
  | .eocdNotFound => [[.lit "EOCD not found"]]
  -- `file_formats/module/mod.rs:78-81`
  | .moduleIsRaw => [[.lit "Module is raw"]]
  | _ => []

/-- `msg` can be the text of `e`. -/
def Err.Says (e : Err) (msg : List Char) : Prop := ∃ t ∈ e.texts, Filled t msg

end Ksusig
