import Verif.Props.Run
/-
A file with code, data and zero-initialised data at a variable address for the examples.
-/
namespace Bean
open Tree Spec Props

/-- The code, which calls the function behind. -/
def imgText (b : Addr) : ElfSec where
  name := ".text"
  virt_addr := b
  size := 6
  executable := true
  data := runCode

/-- A pointer and a number. -/
def imgData (b : Addr) (seed : BitVec 8) : ElfSec where
  name := ".data"
  virt_addr := b + 0x1000
  size := 12
  writeable := true
  data := [seed, seed, 0, 0, 0, 0, 0, 0, 1, 2, 3, 4]

/-- Zero-initialised data. -/
def imgBss (b : Addr) : ElfSec where
  type := .nobits
  name := ".bss"
  virt_addr := b + 0x2000
  size := 8
  writeable := true

/-- The relocation of the pointer. -/
def imgRel (b : Addr) : ElfRel where
  offset := b + 0x1000
  type := R_X86_64_RELATIVE
  addend := b

def imgRela (b : Addr) : ElfSec where
  type := .rela
  name := ".rela.dyn"
  virt_addr := 0
  size := 24
  allocate := false
  relocations := [imgRel b]

def imgFunc (a size : Addr) (name : String) (bind : ElfSymBind) : ElfSym where
  value := a
  size := size
  name := some name
  type := .func
  bind := bind
  shndx := .index 1

def imgVar (a size : Addr) (name : String) (i : Nat) : ElfSym where
  value := a
  size := size
  name := some name
  type := .object
  bind := .local
  shndx := .index i

def imgSyms (b : Addr) : List ElfSym :=
  [imgFunc b 3 "main" .global, imgFunc (b + 3) 2 "f" .local, imgVar (b + 0x1000) 12 "v" 2, imgVar (b + 0x2000) 8 "z" 3]

def imgLoadText (b : Addr) : ElfSeg where
  type := .load
  offset := 0x100
  virt_addr := b
  size := 6
  virt_size := 6
  executable := true

def imgLoadData (b : Addr) : ElfSeg where
  type := .load
  offset := 0x200
  virt_addr := b + 0x1000
  size := 12
  virt_size := 0x1008
  writeable := true

/-- The file. -/
def imgElf (b : Addr) (seed : BitVec 8) : Elf where
  entry := b
  segments := [imgLoadText b, imgLoadData b]
  sections := [runTable [], imgText b, imgData b seed, imgBss b, imgRela b, runTable (imgSyms b)]

/-- The section part of a symbol. -/
def imgSec (a : Addr) (name : String) (w x : Bool) (flags : BitVec 16) : Section where
  address := a
  name := some name
  writeable := w
  executable := x
  flags := flags

/-- The resulting symbols. -/
def imgMain (b : Addr) : Symbol where
  address := b
  size := 3
  name := some "main"
  type := .func
  bind := .global
  flags := SYMBOL_ENTRY
  sec := imgSec b ".text" false true 0
  id := { internal := 0xe6a3acce09633c11, external := 0x5163bef50379b540 }
  refs := [b + 3]

def imgF (b : Addr) : Symbol where
  address := b + 3
  size := 2
  name := some "f"
  type := .func
  sec := imgSec b ".text" false true 0
  id := { internal := 0x000000000c1cabdf }
  deps := [b]

def imgV (b : Addr) : Symbol where
  address := b + 0x1000
  size := 12
  name := some "v"
  type := .object
  sec := imgSec (b + 0x1000) ".data" true false 0
  id := { internal := 0x42e6d8870422af49, external := 0x71782a9ece8c0e8b }
  refs := [b]
  rels := [{ offset := b + 0x1000, type := R_X86_64_RELATIVE, addend := b, target := b }]

def imgVEnd (b : Addr) : Symbol where
  address := b + 0x100c
  size := 0
  sec := imgSec (b + 0x1000) ".data" true false 0x800
  id := { internal := 0x000000000068913b }

def imgZ (b : Addr) : Symbol where
  address := b + 0x2000
  size := 8
  name := some "z"
  type := .object
  sec := imgSec (b + 0x2000) ".bss" true false 0
  id := { internal := 0x4ce1a91249443647 }

def imgZEnd (b : Addr) : Symbol where
  address := b + 0x2008
  size := 0
  sec := imgSec 0 ".bss" true false 0
  id := { internal := 0x000000000066bfbf }

/-- The result. -/
def imgState (b : Addr) (seed : BitVec 8) : AState where
  symbols := [imgMain b, imgF b, imgV b, imgVEnd b, imgZ b, imgZEnd b]
  sections := [imgText b, imgData b seed, imgBss b]
  segments := [imgLoadText b, imgLoadData b]
  relocations := [imgRel b]
  section_flags := [⟨SECTION_NOBITS, b + 0x100c, 0xff4 + 8⟩, ⟨SECTION_NOBITS, b + 0x2000, 8⟩]

theorem img_ok : analyze exEnv {} (imgElf 0x1000 0) none = .ok (imgState 0x1000 0) := by
  exact ok_of_decide (by decide +kernel)

theorem img_moved : analyze exEnv {} (imgElf 0x5000 7) none = .ok (imgState 0x5000 7) := by
  exact ok_of_decide (by decide +kernel)

theorem img_loaded {b : Addr} {seed : BitVec 8} {sec : ElfSec} (h : Loaded (imgElf b seed) sec) :
    sec = imgText b ∨ sec = imgData b seed ∨ sec = imgBss b := by
  obtain ⟨h1, h2, _⟩ := h
  have : sec = runTable [] ∨ sec = imgText b ∨ sec = imgData b seed ∨ sec = imgBss b ∨ sec = imgRela b ∨
      sec = runTable (imgSyms b) := by
    simpa [imgElf] using h1
  rcases this with rfl | rfl | rfl | rfl | rfl | rfl
  · cases h2
  · exact Or.inl rfl
  · exact Or.inr (Or.inl rfl)
  · exact Or.inr (Or.inr rfl)
  · cases h2
  · cases h2

end Bean
