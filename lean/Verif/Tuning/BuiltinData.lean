/-!
# The scale texts shipped with surge-tuning (C268)

Generated by tools/gen_scales.py: the constants of ed2.rs, ed3.rs, ed4.rs, hd2.rs, hd3.rs, hd4.rs, sd2.rs, sd3.rs and sd4.rs, as `indoc!` leaves them.
-/
namespace Verif.Tuning.Builtin

/-- A shipped constant: its name, the interval it divides (`/1`), the two numbers in its name (the second is 0 for the equal divisions), its text, line by line (an empty last line if it ends with a line feed). -/
structure Entry where
  name : List Char
  interval : Nat
  first : Nat
  second : Nat
  lines : List (List Char)

/-- surge-tuning/src/ed2.rs 3-704, all its constants. -/
def ed2 : List Entry := [
  ⟨['E','D','2','_','2','5'], 2, 25, 0, [['!',' ','E','D','2','-','2','5','.','s','c','l'], ['!'], ['E','D','2','-','2','5',' ','-',' ','E','q','u','a','l',' ','d','i','v','i','s','i','o','n',' ','o','f',' ','h','a','r','m','o','n','i','c',' ','2',' ','i','n','t','o',' ','2','5',' ','p','a','r','t','s'], ['2','5'], ['!'], ['4','8','.','0','0','0','0','0'], ['9','6','.','0','0','0','0','0'], ['1','4','4','.','0','0','0','0','0'], ['1','9','2','.','0','0','0','0','0'], ['2','4','0','.','0','0','0','0','0'], ['2','8','8','.','0','0','0','0','0'], ['3','3','6','.','0','0','0','0','0'], ['3','8','4','.','0','0','0','0','0'], ['4','3','2','.','0','0','0','0','0'], ['4','8','0','.','0','0','0','0','0'], ['5','2','8','.','0','0','0','0','0'], ['5','7','6','.','0','0','0','0','0'], ['6','2','4','.','0','0','0','0','0'], ['6','7','2','.','0','0','0','0','0'], ['7','2','0','.','0','0','0','0','0'], ['7','6','8','.','0','0','0','0','0'], ['8','1','6','.','0','0','0','0','0'], ['8','6','4','.','0','0','0','0','0'], ['9','1','2','.','0','0','0','0','0'], ['9','6','0','.','0','0','0','0','0'], ['1','0','0','8','.','0','0','0','0','0'], ['1','0','5','6','.','0','0','0','0','0'], ['1','1','0','4','.','0','0','0','0','0'], ['1','1','5','2','.','0','0','0','0','0'], ['2','/','1'], []]⟩,
  ⟨['E','D','2','_','0','5'], 2, 5, 0, [['!',' ','E','D','2','-','0','5','.','s','c','l'], ['!'], ['E','D','2','-','0','5',' ','-',' ','E','q','u','a','l',' ','d','i','v','i','s','i','o','n',' ','o','f',' ','h','a','r','m','o','n','i','c',' ','2',' ','i','n','t','o',' ','5',' ','p','a','r','t','s'], ['5'], ['!'], ['2','4','0','.','0','0','0','0','0'], ['4','8','0','.','0','0','0','0','0'], ['7','2','0','.','0','0','0','0','0'], ['9','6','0','.','0','0','0','0','0'], ['2','/','1'], []]⟩,
  ⟨['E','D','2','_','0','6'], 2, 6, 0, [['!',' ','E','D','2','-','0','6','.','s','c','l'], ['!'], ['E','D','2','-','0','6',' ','-',' ','E','q','u','a','l',' ','d','i','v','i','s','i','o','n',' ','o','f',' ','h','a','r','m','o','n','i','c',' ','2',' ','i','n','t','o',' ','6',' ','p','a','r','t','s'], ['6'], ['!'], ['2','0','0','.','0','0','0','0','0'], ['4','0','0','.','0','0','0','0','0'], ['6','0','0','.','0','0','0','0','0'], ['8','0','0','.','0','0','0','0','0'], ['1','0','0','0','.','0','0','0','0','0'], ['2','/','1'], []]⟩,
  ⟨['E','D','2','_','0','7'], 2, 7, 0, [['!',' ','E','D','2','-','0','7','.','s','c','l'], ['!'], ['E','D','2','-','0','7',' ','-',' ','E','q','u','a','l',' ','d','i','v','i','s','i','o','n',' ','o','f',' ','h','a','r','m','o','n','i','c',' ','2',' ','i','n','t','o',' ','7',' ','p','a','r','t','s'], ['7'], ['!'], ['1','7','1','.','4','2','8','5','7'], ['3','4','2','.','8','5','7','1','4'], ['5','1','4','.','2','8','5','7','1'], ['6','8','5','.','7','1','4','2','9'], ['8','5','7','.','1','4','2','8','6'], ['1','0','2','8','.','5','7','1','4','3'], ['2','/','1'], []]⟩,
  ⟨['E','D','2','_','0','8'], 2, 8, 0, [['!',' ','E','D','2','-','0','8','.','s','c','l'], ['!'], ['E','D','2','-','0','8',' ','-',' ','E','q','u','a','l',' ','d','i','v','i','s','i','o','n',' ','o','f',' ','h','a','r','m','o','n','i','c',' ','2',' ','i','n','t','o',' ','8',' ','p','a','r','t','s'], ['8'], ['!'], ['1','5','0','.','0','0','0','0','0'], ['3','0','0','.','0','0','0','0','0'], ['4','5','0','.','0','0','0','0','0'], ['6','0','0','.','0','0','0','0','0'], ['7','5','0','.','0','0','0','0','0'], ['9','0','0','.','0','0','0','0','0'], ['1','0','5','0','.','0','0','0','0','0'], ['2','/','1'], []]⟩,
  ⟨['E','D','2','_','0','9'], 2, 9, 0, [['!',' ','E','D','2','-','0','9','.','s','c','l'], ['!'], ['E','D','2','-','0','9',' ','-',' ','E','q','u','a','l',' ','d','i','v','i','s','i','o','n',' ','o','f',' ','h','a','r','m','o','n','i','c',' ','2',' ','i','n','t','o',' ','9',' ','p','a','r','t','s'], ['9'], ['!'], ['1','3','3','.','3','3','3','3','3'], ['2','6','6','.','6','6','6','6','7'], ['4','0','0','.','0','0','0','0','0'], ['5','3','3','.','3','3','3','3','3'], ['6','6','6','.','6','6','6','6','7'], ['8','0','0','.','0','0','0','0','0'], ['9','3','3','.','3','3','3','3','3'], ['1','0','6','6','.','6','6','6','6','7'], ['2','/','1'], []]⟩,
  ⟨['E','D','2','_','1','0'], 2, 10, 0, [['!',' ','E','D','2','-','1','0','.','s','c','l'], ['!'], ['E','D','2','-','1','0',' ','-',' ','E','q','u','a','l',' ','d','i','v','i','s','i','o','n',' ','o','f',' ','h','a','r','m','o','n','i','c',' ','2',' ','i','n','t','o',' ','1','0',' ','p','a','r','t','s'], ['1','0'], ['!'], ['1','2','0','.','0','0','0','0','0'], ['2','4','0','.','0','0','0','0','0'], ['3','6','0','.','0','0','0','0','0'], ['4','8','0','.','0','0','0','0','0'], ['6','0','0','.','0','0','0','0','0'], ['7','2','0','.','0','0','0','0','0'], ['8','4','0','.','0','0','0','0','0'], ['9','6','0','.','0','0','0','0','0'], ['1','0','8','0','.','0','0','0','0','0'], ['2','/','1'], []]⟩,
  ⟨['E','D','2','_','1','1'], 2, 11, 0, [['s',' ','!',' ','E','D','2','-','1','1',' ','.','s','c','l'], ['!'], ['E','D','2','-','1','1',' ','-',' ','E','q','u','a','l',' ','d','i','v','i','s','i','o','n',' ','o','f',' ','h','a','r','m','o','n','i','c',' ','2',' ','i','n','t','o',' ','1','1',' ','p','a','r','t','s'], ['1','1'], ['!'], ['1','0','9','.','0','9','0','9','1'], ['2','1','8','.','1','8','1','8','2'], ['3','2','7','.','2','7','2','7','3'], ['4','3','6','.','3','6','3','6','4'], ['5','4','5','.','4','5','4','5','5'], ['6','5','4','.','5','4','5','4','5'], ['7','6','3','.','6','3','6','3','6'], ['8','7','2','.','7','2','7','2','7'], ['9','8','1','.','8','1','8','1','8'], ['1','0','9','0','.','9','0','9','0','9'], ['2','/','1'], []]⟩,
  ⟨['E','D','2','_','1','2'], 2, 12, 0, [['!',' ','E','D','2','-','1','2','.','s','c','l'], ['!'], ['E','D','2','-','1','2',' ','-',' ','E','q','u','a','l',' ','d','i','v','i','s','i','o','n',' ','o','f',' ','h','a','r','m','o','n','i','c',' ','2',' ','i','n','t','o',' ','1','2',' ','p','a','r','t','s'], ['1','2'], ['!'], ['1','0','0','.','0','0','0','0','0'], ['2','0','0','.','0','0','0','0','0'], ['3','0','0','.','0','0','0','0','0'], ['4','0','0','.','0','0','0','0','0'], ['5','0','0','.','0','0','0','0','0'], ['6','0','0','.','0','0','0','0','0'], ['7','0','0','.','0','0','0','0','0'], ['8','0','0','.','0','0','0','0','0'], ['9','0','0','.','0','0','0','0','0'], ['1','0','0','0','.','0','0','0','0','0'], ['1','1','0','0','.','0','0','0','0','0'], ['2','/','1'], []]⟩,
  ⟨['E','D','2','_','1','3'], 2, 13, 0, [['!',' ','E','D','2','-','1','3','.','s','c','l'], ['!'], ['E','D','2','-','1','3',' ','-',' ','E','q','u','a','l',' ','d','i','v','i','s','i','o','n',' ','o','f',' ','h','a','r','m','o','n','i','c',' ','2',' ','i','n','t','o',' ','1','3',' ','p','a','r','t','s'], ['1','3'], ['!'], ['9','2','.','3','0','7','6','9'], ['1','8','4','.','6','1','5','3','8'], ['2','7','6','.','9','2','3','0','8'], ['3','6','9','.','2','3','0','7','7'], ['4','6','1','.','5','3','8','4','6'], ['5','5','3','.','8','4','6','1','5'], ['6','4','6','.','1','5','3','8','5'], ['7','3','8','.','4','6','1','5','4'], ['8','3','0','.','7','6','9','2','3'], ['9','2','3','.','0','7','6','9','2'], ['1','0','1','5','.','3','8','4','6','2'], ['1','1','0','7','.','6','9','2','3','1'], ['2','/','1'], []]⟩,
  ⟨['E','D','2','_','1','4'], 2, 14, 0, [['!',' ','E','D','2','-','1','4','.','s','c','l'], ['!'], ['E','D','2','-','1','4',' ','-',' ','E','q','u','a','l',' ','d','i','v','i','s','i','o','n',' ','o','f',' ','h','a','r','m','o','n','i','c',' ','2',' ','i','n','t','o',' ','1','4',' ','p','a','r','t','s'], ['1','4'], ['!'], ['8','5','.','7','1','4','2','9'], ['1','7','1','.','4','2','8','5','7'], ['2','5','7','.','1','4','2','8','6'], ['3','4','2','.','8','5','7','1','4'], ['4','2','8','.','5','7','1','4','3'], ['5','1','4','.','2','8','5','7','1'], ['6','0','0','.','0','0','0','0','0'], ['6','8','5','.','7','1','4','2','9'], ['7','7','1','.','4','2','8','5','7'], ['8','5','7','.','1','4','2','8','6'], ['9','4','2','.','8','5','7','1','4'], ['1','0','2','8','.','5','7','1','4','3'], ['1','1','1','4','.','2','8','5','7','1'], ['2','/','1'], []]⟩,
  ⟨['E','D','2','_','1','5'], 2, 15, 0, [['!',' ','E','D','2','-','1','5','.','s','c','l'], ['!'], ['E','D','2','-','1','5',' ','-',' ','E','q','u','a','l',' ','d','i','v','i','s','i','o','n',' ','o','f',' ','h','a','r','m','o','n','i','c',' ','2',' ','i','n','t','o',' ','1','5',' ','p','a','r','t','s'], ['1','5'], ['!'], ['8','0','.','0','0','0','0','0'], ['1','6','0','.','0','0','0','0','0'], ['2','4','0','.','0','0','0','0','0'], ['3','2','0','.','0','0','0','0','0'], ['4','0','0','.','0','0','0','0','0'], ['4','8','0','.','0','0','0','0','0'], ['5','6','0','.','0','0','0','0','0'], ['6','4','0','.','0','0','0','0','0'], ['7','2','0','.','0','0','0','0','0'], ['8','0','0','.','0','0','0','0','0'], ['8','8','0','.','0','0','0','0','0'], ['9','6','0','.','0','0','0','0','0'], ['1','0','4','0','.','0','0','0','0','0'], ['1','1','2','0','.','0','0','0','0','0'], ['2','/','1'], []]⟩,
  ⟨['E','D','2','_','1','6'], 2, 16, 0, [['!',' ','E','D','2','-','1','6','.','s','c','l'], ['!'], ['E','D','2','-','1','6',' ','-',' ','E','q','u','a','l',' ','d','i','v','i','s','i','o','n',' ','o','f',' ','h','a','r','m','o','n','i','c',' ','2',' ','i','n','t','o',' ','1','6',' ','p','a','r','t','s'], ['1','6'], ['!'], ['7','5','.','0','0','0','0','0'], ['1','5','0','.','0','0','0','0','0'], ['2','2','5','.','0','0','0','0','0'], ['3','0','0','.','0','0','0','0','0'], ['3','7','5','.','0','0','0','0','0'], ['4','5','0','.','0','0','0','0','0'], ['5','2','5','.','0','0','0','0','0'], ['6','0','0','.','0','0','0','0','0'], ['6','7','5','.','0','0','0','0','0'], ['7','5','0','.','0','0','0','0','0'], ['8','2','5','.','0','0','0','0','0'], ['9','0','0','.','0','0','0','0','0'], ['9','7','5','.','0','0','0','0','0'], ['1','0','5','0','.','0','0','0','0','0'], ['1','1','2','5','.','0','0','0','0','0'], ['2','/','1'], []]⟩,
  ⟨['E','D','2','_','1','7'], 2, 17, 0, [['!',' ','E','D','2','-','1','7','.','s','c','l'], ['!'], ['E','D','2','-','1','7',' ','-',' ','E','q','u','a','l',' ','d','i','v','i','s','i','o','n',' ','o','f',' ','h','a','r','m','o','n','i','c',' ','2',' ','i','n','t','o',' ','1','7',' ','p','a','r','t','s'], ['1','7'], ['!'], ['7','0','.','5','8','8','2','4'], ['1','4','1','.','1','7','6','4','7'], ['2','1','1','.','7','6','4','7','1'], ['2','8','2','.','3','5','2','9','4'], ['3','5','2','.','9','4','1','1','8'], ['4','2','3','.','5','2','9','4','1'], ['4','9','4','.','1','1','7','6','5'], ['5','6','4','.','7','0','5','8','8'], ['6','3','5','.','2','9','4','1','2'], ['7','0','5','.','8','8','2','3','5'], ['7','7','6','.','4','7','0','5','9'], ['8','4','7','.','0','5','8','8','2'], ['9','1','7','.','6','4','7','0','6'], ['9','8','8','.','2','3','5','2','9'], ['1','0','5','8','.','8','2','3','5','3'], ['1','1','2','9','.','4','1','1','7','6'], ['2','/','1'], []]⟩,
  ⟨['E','D','2','_','1','8'], 2, 18, 0, [['!',' ','E','D','2','-','1','8','.','s','c','l'], ['!'], ['E','D','2','-','1','8',' ','-',' ','E','q','u','a','l',' ','d','i','v','i','s','i','o','n',' ','o','f',' ','h','a','r','m','o','n','i','c',' ','2',' ','i','n','t','o',' ','1','8',' ','p','a','r','t','s'], ['1','8'], ['!'], ['6','6','.','6','6','6','6','7'], ['1','3','3','.','3','3','3','3','3'], ['2','0','0','.','0','0','0','0','0'], ['2','6','6','.','6','6','6','6','7'], ['3','3','3','.','3','3','3','3','3'], ['4','0','0','.','0','0','0','0','0'], ['4','6','6','.','6','6','6','6','7'], ['5','3','3','.','3','3','3','3','3'], ['6','0','0','.','0','0','0','0','0'], ['6','6','6','.','6','6','6','6','7'], ['7','3','3','.','3','3','3','3','3'], ['8','0','0','.','0','0','0','0','0'], ['8','6','6','.','6','6','6','6','7'], ['9','3','3','.','3','3','3','3','3'], ['1','0','0','0','.','0','0','0','0','0'], ['1','0','6','6','.','6','6','6','6','7'], ['1','1','3','3','.','3','3','3','3','3'], ['2','/','1'], []]⟩,
  ⟨['E','D','2','_','1','9'], 2, 19, 0, [['!',' ','E','D','2','-','1','9','.','s','c','l'], ['!'], ['E','D','2','-','1','9',' ','-',' ','E','q','u','a','l',' ','d','i','v','i','s','i','o','n',' ','o','f',' ','h','a','r','m','o','n','i','c',' ','2',' ','i','n','t','o',' ','1','9',' ','p','a','r','t','s'], ['1','9'], ['!'], ['6','3','.','1','5','7','8','9'], ['1','2','6','.','3','1','5','7','9'], ['1','8','9','.','4','7','3','6','8'], ['2','5','2','.','6','3','1','5','8'], ['3','1','5','.','7','8','9','4','7'], ['3','7','8','.','9','4','7','3','7'], ['4','4','2','.','1','0','5','2','6'], ['5','0','5','.','2','6','3','1','6'], ['5','6','8','.','4','2','1','0','5'], ['6','3','1','.','5','7','8','9','5'], ['6','9','4','.','7','3','6','8','4'], ['7','5','7','.','8','9','4','7','4'], ['8','2','1','.','0','5','2','6','3'], ['8','8','4','.','2','1','0','5','3'], ['9','4','7','.','3','6','8','4','2'], ['1','0','1','0','.','5','2','6','3','2'], ['1','0','7','3','.','6','8','4','2','1'], ['1','1','3','6','.','8','4','2','1','1'], ['2','/','1'], []]⟩,
  ⟨['E','D','2','_','2','0'], 2, 20, 0, [['!',' ','E','D','2','-','2','0','.','s','c','l'], ['!'], ['E','D','2','-','2','0',' ','-',' ','E','q','u','a','l',' ','d','i','v','i','s','i','o','n',' ','o','f',' ','h','a','r','m','o','n','i','c',' ','2',' ','i','n','t','o',' ','2','0',' ','p','a','r','t','s'], ['2','0'], ['!'], ['6','0','.','0','0','0','0','0'], ['1','2','0','.','0','0','0','0','0'], ['1','8','0','.','0','0','0','0','0'], ['2','4','0','.','0','0','0','0','0'], ['3','0','0','.','0','0','0','0','0'], ['3','6','0','.','0','0','0','0','0'], ['4','2','0','.','0','0','0','0','0'], ['4','8','0','.','0','0','0','0','0'], ['5','4','0','.','0','0','0','0','0'], ['6','0','0','.','0','0','0','0','0'], ['6','6','0','.','0','0','0','0','0'], ['7','2','0','.','0','0','0','0','0'], ['7','8','0','.','0','0','0','0','0'], ['8','4','0','.','0','0','0','0','0'], ['9','0','0','.','0','0','0','0','0'], ['9','6','0','.','0','0','0','0','0'], ['1','0','2','0','.','0','0','0','0','0'], ['1','0','8','0','.','0','0','0','0','0'], ['1','1','4','0','.','0','0','0','0','0'], ['2','/','1'], []]⟩,
  ⟨['E','D','2','_','2','1'], 2, 21, 0, [['!',' ','E','D','2','-','2','1','.','s','c','l'], ['!'], ['E','D','2','-','2','1',' ','-',' ','E','q','u','a','l',' ','d','i','v','i','s','i','o','n',' ','o','f',' ','h','a','r','m','o','n','i','c',' ','2',' ','i','n','t','o',' ','2','1',' ','p','a','r','t','s'], ['2','1'], ['!'], ['5','7','.','1','4','2','8','6'], ['1','1','4','.','2','8','5','7','1'], ['1','7','1','.','4','2','8','5','7'], ['2','2','8','.','5','7','1','4','3'], ['2','8','5','.','7','1','4','2','9'], ['3','4','2','.','8','5','7','1','4'], ['4','0','0','.','0','0','0','0','0'], ['4','5','7','.','1','4','2','8','6'], ['5','1','4','.','2','8','5','7','1'], ['5','7','1','.','4','2','8','5','7'], ['6','2','8','.','5','7','1','4','3'], ['6','8','5','.','7','1','4','2','9'], ['7','4','2','.','8','5','7','1','4'], ['8','0','0','.','0','0','0','0','0'], ['8','5','7','.','1','4','2','8','6'], ['9','1','4','.','2','8','5','7','1'], ['9','7','1','.','4','2','8','5','7'], ['1','0','2','8','.','5','7','1','4','3'], ['1','0','8','5','.','7','1','4','2','9'], ['1','1','4','2','.','8','5','7','1','4'], ['2','/','1'], []]⟩,
  ⟨['E','D','2','_','2','2'], 2, 22, 0, [['!',' ','E','D','2','-','2','2','.','s','c','l'], ['!'], ['E','D','2','-','2','2',' ','-',' ','E','q','u','a','l',' ','d','i','v','i','s','i','o','n',' ','o','f',' ','h','a','r','m','o','n','i','c',' ','2',' ','i','n','t','o',' ','2','2',' ','p','a','r','t','s'], ['2','2'], ['!'], ['5','4','.','5','4','5','4','5'], ['1','0','9','.','0','9','0','9','1'], ['1','6','3','.','6','3','6','3','6'], ['2','1','8','.','1','8','1','8','2'], ['2','7','2','.','7','2','7','2','7'], ['3','2','7','.','2','7','2','7','3'], ['3','8','1','.','8','1','8','1','8'], ['4','3','6','.','3','6','3','6','4'], ['4','9','0','.','9','0','9','0','9'], ['5','4','5','.','4','5','4','5','5'], ['6','0','0','.','0','0','0','0','0'], ['6','5','4','.','5','4','5','4','5'], ['7','0','9','.','0','9','0','9','1'], ['7','6','3','.','6','3','6','3','6'], ['8','1','8','.','1','8','1','8','2'], ['8','7','2','.','7','2','7','2','7'], ['9','2','7','.','2','7','2','7','3'], ['9','8','1','.','8','1','8','1','8'], ['1','0','3','6','.','3','6','3','6','4'], ['1','0','9','0','.','9','0','9','0','9'], ['1','1','4','5','.','4','5','4','5','5'], ['2','/','1'], []]⟩,
  ⟨['E','D','2','_','2','3'], 2, 23, 0, [['!',' ','E','D','2','-','2','3','.','s','c','l'], ['!'], ['E','D','2','-','2','3',' ','-',' ','E','q','u','a','l',' ','d','i','v','i','s','i','o','n',' ','o','f',' ','h','a','r','m','o','n','i','c',' ','2',' ','i','n','t','o',' ','2','3',' ','p','a','r','t','s'], ['2','3'], ['!'], ['5','2','.','1','7','3','9','1'], ['1','0','4','.','3','4','7','8','3'], ['1','5','6','.','5','2','1','7','4'], ['2','0','8','.','6','9','5','6','5'], ['2','6','0','.','8','6','9','5','7'], ['3','1','3','.','0','4','3','4','8'], ['3','6','5','.','2','1','7','3','9'], ['4','1','7','.','3','9','1','3','0'], ['4','6','9','.','5','6','5','2','2'], ['5','2','1','.','7','3','9','1','3'], ['5','7','3','.','9','1','3','0','4'], ['6','2','6','.','0','8','6','9','6'], ['6','7','8','.','2','6','0','8','7'], ['7','3','0','.','4','3','4','7','8'], ['7','8','2','.','6','0','8','7','0'], ['8','3','4','.','7','8','2','6','1'], ['8','8','6','.','9','5','6','5','2'], ['9','3','9','.','1','3','0','4','3'], ['9','9','1','.','3','0','4','3','5'], ['1','0','4','3','.','4','7','8','2','6'], ['1','0','9','5','.','6','5','2','1','7'], ['1','1','4','7','.','8','2','6','0','9'], ['2','/','1'], []]⟩,
  ⟨['E','D','2','_','2','4'], 2, 24, 0, [['!',' ','E','D','2','-','2','4','.','s','c','l'], ['!'], ['E','D','2','-','2','4',' ','-',' ','E','q','u','a','l',' ','d','i','v','i','s','i','o','n',' ','o','f',' ','h','a','r','m','o','n','i','c',' ','2',' ','i','n','t','o',' ','2','4',' ','p','a','r','t','s'], ['2','4'], ['!'], ['5','0','.','0','0','0','0','0'], ['1','0','0','.','0','0','0','0','0'], ['1','5','0','.','0','0','0','0','0'], ['2','0','0','.','0','0','0','0','0'], ['2','5','0','.','0','0','0','0','0'], ['3','0','0','.','0','0','0','0','0'], ['3','5','0','.','0','0','0','0','0'], ['4','0','0','.','0','0','0','0','0'], ['4','5','0','.','0','0','0','0','0'], ['5','0','0','.','0','0','0','0','0'], ['5','5','0','.','0','0','0','0','0'], ['6','0','0','.','0','0','0','0','0'], ['6','5','0','.','0','0','0','0','0'], ['7','0','0','.','0','0','0','0','0'], ['7','5','0','.','0','0','0','0','0'], ['8','0','0','.','0','0','0','0','0'], ['8','5','0','.','0','0','0','0','0'], ['9','0','0','.','0','0','0','0','0'], ['9','5','0','.','0','0','0','0','0'], ['1','0','0','0','.','0','0','0','0','0'], ['1','0','5','0','.','0','0','0','0','0'], ['1','1','0','0','.','0','0','0','0','0'], ['1','1','5','0','.','0','0','0','0','0'], ['2','/','1'], []]⟩,
  ⟨['E','D','2','_','2','6'], 2, 26, 0, [['!',' ','E','D','2','-','2','6','.','s','c','l'], ['!'], ['E','D','2','-','2','6',' ','-',' ','E','q','u','a','l',' ','d','i','v','i','s','i','o','n',' ','o','f',' ','h','a','r','m','o','n','i','c',' ','2',' ','i','n','t','o',' ','2','6',' ','p','a','r','t','s'], ['2','6'], ['!'], ['4','6','.','1','5','3','8','5'], ['9','2','.','3','0','7','6','9'], ['1','3','8','.','4','6','1','5','4'], ['1','8','4','.','6','1','5','3','8'], ['2','3','0','.','7','6','9','2','3'], ['2','7','6','.','9','2','3','0','8'], ['3','2','3','.','0','7','6','9','2'], ['3','6','9','.','2','3','0','7','7'], ['4','1','5','.','3','8','4','6','2'], ['4','6','1','.','5','3','8','4','6'], ['5','0','7','.','6','9','2','3','1'], ['5','5','3','.','8','4','6','1','5'], ['6','0','0','.','0','0','0','0','0'], ['6','4','6','.','1','5','3','8','5'], ['6','9','2','.','3','0','7','6','9'], ['7','3','8','.','4','6','1','5','4'], ['7','8','4','.','6','1','5','3','8'], ['8','3','0','.','7','6','9','2','3'], ['8','7','6','.','9','2','3','0','8'], ['9','2','3','.','0','7','6','9','2'], ['9','6','9','.','2','3','0','7','7'], ['1','0','1','5','.','3','8','4','6','2'], ['1','0','6','1','.','5','3','8','4','6'], ['1','1','0','7','.','6','9','2','3','1'], ['1','1','5','3','.','8','4','6','1','5'], ['2','/','1'], []]⟩,
  ⟨['E','D','2','_','2','7'], 2, 27, 0, [['!',' ','E','D','2','-','2','7','.','s','c','l'], ['!'], ['E','D','2','-','2','7',' ','-',' ','E','q','u','a','l',' ','d','i','v','i','s','i','o','n',' ','o','f',' ','h','a','r','m','o','n','i','c',' ','2',' ','i','n','t','o',' ','2','7',' ','p','a','r','t','s'], ['2','7'], ['!'], ['4','4','.','4','4','4','4','4'], ['8','8','.','8','8','8','8','9'], ['1','3','3','.','3','3','3','3','3'], ['1','7','7','.','7','7','7','7','8'], ['2','2','2','.','2','2','2','2','2'], ['2','6','6','.','6','6','6','6','7'], ['3','1','1','.','1','1','1','1','1'], ['3','5','5','.','5','5','5','5','6'], ['4','0','0','.','0','0','0','0','0'], ['4','4','4','.','4','4','4','4','4'], ['4','8','8','.','8','8','8','8','9'], ['5','3','3','.','3','3','3','3','3'], ['5','7','7','.','7','7','7','7','8'], ['6','2','2','.','2','2','2','2','2'], ['6','6','6','.','6','6','6','6','7'], ['7','1','1','.','1','1','1','1','1'], ['7','5','5','.','5','5','5','5','6'], ['8','0','0','.','0','0','0','0','0'], ['8','4','4','.','4','4','4','4','4'], ['8','8','8','.','8','8','8','8','9'], ['9','3','3','.','3','3','3','3','3'], ['9','7','7','.','7','7','7','7','8'], ['1','0','2','2','.','2','2','2','2','2'], ['1','0','6','6','.','6','6','6','6','7'], ['1','1','1','1','.','1','1','1','1','1'], ['1','1','5','5','.','5','5','5','5','6'], ['2','/','1'], []]⟩,
  ⟨['E','D','2','_','2','8'], 2, 28, 0, [['!',' ','E','D','2','-','2','8','.','s','c','l'], ['!'], ['E','D','2','-','2','8',' ','-',' ','E','q','u','a','l',' ','d','i','v','i','s','i','o','n',' ','o','f',' ','h','a','r','m','o','n','i','c',' ','2',' ','i','n','t','o',' ','2','8',' ','p','a','r','t','s'], ['2','8'], ['!'], ['4','2','.','8','5','7','1','4'], ['8','5','.','7','1','4','2','9'], ['1','2','8','.','5','7','1','4','3'], ['1','7','1','.','4','2','8','5','7'], ['2','1','4','.','2','8','5','7','1'], ['2','5','7','.','1','4','2','8','6'], ['3','0','0','.','0','0','0','0','0'], ['3','4','2','.','8','5','7','1','4'], ['3','8','5','.','7','1','4','2','9'], ['4','2','8','.','5','7','1','4','3'], ['4','7','1','.','4','2','8','5','7'], ['5','1','4','.','2','8','5','7','1'], ['5','5','7','.','1','4','2','8','6'], ['6','0','0','.','0','0','0','0','0'], ['6','4','2','.','8','5','7','1','4'], ['6','8','5','.','7','1','4','2','9'], ['7','2','8','.','5','7','1','4','3'], ['7','7','1','.','4','2','8','5','7'], ['8','1','4','.','2','8','5','7','1'], ['8','5','7','.','1','4','2','8','6'], ['9','0','0','.','0','0','0','0','0'], ['9','4','2','.','8','5','7','1','4'], ['9','8','5','.','7','1','4','2','9'], ['1','0','2','8','.','5','7','1','4','3'], ['1','0','7','1','.','4','2','8','5','7'], ['1','1','1','4','.','2','8','5','7','1'], ['1','1','5','7','.','1','4','2','8','6'], ['2','/','1'], []]⟩,
  ⟨['E','D','2','_','2','9'], 2, 29, 0, [['!',' ','E','D','2','-','2','9','.','s','c','l'], ['!'], ['E','D','2','-','2','9',' ','-',' ','E','q','u','a','l',' ','d','i','v','i','s','i','o','n',' ','o','f',' ','h','a','r','m','o','n','i','c',' ','2',' ','i','n','t','o',' ','2','9',' ','p','a','r','t','s'], ['2','9'], ['!'], ['4','1','.','3','7','9','3','1'], ['8','2','.','7','5','8','6','2'], ['1','2','4','.','1','3','7','9','3'], ['1','6','5','.','5','1','7','2','4'], ['2','0','6','.','8','9','6','5','5'], ['2','4','8','.','2','7','5','8','6'], ['2','8','9','.','6','5','5','1','7'], ['3','3','1','.','0','3','4','4','8'], ['3','7','2','.','4','1','3','7','9'], ['4','1','3','.','7','9','3','1','0'], ['4','5','5','.','1','7','2','4','1'], ['4','9','6','.','5','5','1','7','2'], ['5','3','7','.','9','3','1','0','3'], ['5','7','9','.','3','1','0','3','4'], ['6','2','0','.','6','8','9','6','6'], ['6','6','2','.','0','6','8','9','7'], ['7','0','3','.','4','4','8','2','8'], ['7','4','4','.','8','2','7','5','9'], ['7','8','6','.','2','0','6','9','0'], ['8','2','7','.','5','8','6','2','1'], ['8','6','8','.','9','6','5','5','2'], ['9','1','0','.','3','4','4','8','3'], ['9','5','1','.','7','2','4','1','4'], ['9','9','3','.','1','0','3','4','5'], ['1','0','3','4','.','4','8','2','7','6'], ['1','0','7','5','.','8','6','2','0','7'], ['1','1','1','7','.','2','4','1','3','8'], ['1','1','5','8','.','6','2','0','6','9'], ['2','/','1'], []]⟩,
  ⟨['E','D','2','_','3','0'], 2, 30, 0, [['!',' ','E','D','2','-','3','0','.','s','c','l'], ['!'], ['E','D','2','-','3','0',' ','-',' ','E','q','u','a','l',' ','d','i','v','i','s','i','o','n',' ','o','f',' ','h','a','r','m','o','n','i','c',' ','2',' ','i','n','t','o',' ','3','0',' ','p','a','r','t','s'], ['3','0'], ['!'], ['4','0','.','0','0','0','0','0'], ['8','0','.','0','0','0','0','0'], ['1','2','0','.','0','0','0','0','0'], ['1','6','0','.','0','0','0','0','0'], ['2','0','0','.','0','0','0','0','0'], ['2','4','0','.','0','0','0','0','0'], ['2','8','0','.','0','0','0','0','0'], ['3','2','0','.','0','0','0','0','0'], ['3','6','0','.','0','0','0','0','0'], ['4','0','0','.','0','0','0','0','0'], ['4','4','0','.','0','0','0','0','0'], ['4','8','0','.','0','0','0','0','0'], ['5','2','0','.','0','0','0','0','0'], ['5','6','0','.','0','0','0','0','0'], ['6','0','0','.','0','0','0','0','0'], ['6','4','0','.','0','0','0','0','0'], ['6','8','0','.','0','0','0','0','0'], ['7','2','0','.','0','0','0','0','0'], ['7','6','0','.','0','0','0','0','0'], ['8','0','0','.','0','0','0','0','0'], ['8','4','0','.','0','0','0','0','0'], ['8','8','0','.','0','0','0','0','0'], ['9','2','0','.','0','0','0','0','0'], ['9','6','0','.','0','0','0','0','0'], ['1','0','0','0','.','0','0','0','0','0'], ['1','0','4','0','.','0','0','0','0','0'], ['1','0','8','0','.','0','0','0','0','0'], ['1','1','2','0','.','0','0','0','0','0'], ['1','1','6','0','.','0','0','0','0','0'], ['2','/','1'], []]⟩,
  ⟨['E','D','2','_','3','1'], 2, 31, 0, [['!',' ','E','D','2','-','3','1','.','s','c','l'], ['!'], ['E','D','2','-','3','1',' ','-',' ','E','q','u','a','l',' ','d','i','v','i','s','i','o','n',' ','o','f',' ','h','a','r','m','o','n','i','c',' ','2',' ','i','n','t','o',' ','3','1',' ','p','a','r','t','s'], ['3','1'], ['!'], ['3','8','.','7','0','9','6','8'], ['7','7','.','4','1','9','3','5'], ['1','1','6','.','1','2','9','0','3'], ['1','5','4','.','8','3','8','7','1'], ['1','9','3','.','5','4','8','3','9'], ['2','3','2','.','2','5','8','0','6'], ['2','7','0','.','9','6','7','7','4'], ['3','0','9','.','6','7','7','4','2'], ['3','4','8','.','3','8','7','1','0'], ['3','8','7','.','0','9','6','7','7'], ['4','2','5','.','8','0','6','4','5'], ['4','6','4','.','5','1','6','1','3'], ['5','0','3','.','2','2','5','8','1'], ['5','4','1','.','9','3','5','4','8'], ['5','8','0','.','6','4','5','1','6'], ['6','1','9','.','3','5','4','8','4'], ['6','5','8','.','0','6','4','5','2'], ['6','9','6','.','7','7','4','1','9'], ['7','3','5','.','4','8','3','8','7'], ['7','7','4','.','1','9','3','5','5'], ['8','1','2','.','9','0','3','2','3'], ['8','5','1','.','6','1','2','9','0'], ['8','9','0','.','3','2','2','5','8'], ['9','2','9','.','0','3','2','2','6'], ['9','6','7','.','7','4','1','9','4'], ['1','0','0','6','.','4','5','1','6','1'], ['1','0','4','5','.','1','6','1','2','9'], ['1','0','8','3','.','8','7','0','9','7'], ['1','1','2','2','.','5','8','0','6','5'], ['1','1','6','1','.','2','9','0','3','2'], ['2','/','1'], []]⟩]

/-- surge-tuning/src/ed3.rs 3-526, all its constants. -/
def ed3 : List Entry := [
  ⟨['E','D','3','_','0','7'], 3, 7, 0, [['!',' ','E','D','3','-','0','7','.','s','c','l'], ['!'], ['E','D','3','-','0','7',' ','-',' ','E','q','u','a','l',' ','d','i','v','i','s','i','o','n',' ','o','f',' ','h','a','r','m','o','n','i','c',' ','3',' ','i','n','t','o',' ','7',' ','p','a','r','t','s'], ['7'], ['!'], ['2','7','1','.','7','0','7','8','6'], ['5','4','3','.','4','1','5','7','1'], ['8','1','5','.','1','2','3','5','7'], ['1','0','8','6','.','8','3','1','4','3'], ['1','3','5','8','.','5','3','9','2','9'], ['1','6','3','0','.','2','4','7','1','4'], ['3','/','1'], []]⟩,
  ⟨['E','D','3','_','0','8'], 3, 8, 0, [['!',' ','E','D','3','-','0','8','.','s','c','l'], ['!'], ['E','D','3','-','0','8',' ','-',' ','E','q','u','a','l',' ','d','i','v','i','s','i','o','n',' ','o','f',' ','h','a','r','m','o','n','i','c',' ','3',' ','i','n','t','o',' ','8',' ','p','a','r','t','s'], ['8'], ['!'], ['2','3','7','.','7','4','4','3','8'], ['4','7','5','.','4','8','8','7','5'], ['7','1','3','.','2','3','3','1','3'], ['9','5','0','.','9','7','7','5','0'], ['1','1','8','8','.','7','2','1','8','8'], ['1','4','2','6','.','4','6','6','2','5'], ['1','6','6','4','.','2','1','0','6','3'], ['3','/','1'], []]⟩,
  ⟨['E','D','3','_','0','9'], 3, 9, 0, [['!',' ','E','D','3','-','0','9','.','s','c','l'], ['!'], ['E','D','3','-','0','9',' ','-',' ','E','q','u','a','l',' ','d','i','v','i','s','i','o','n',' ','o','f',' ','h','a','r','m','o','n','i','c',' ','3',' ','i','n','t','o',' ','9',' ','p','a','r','t','s'], ['9'], ['!'], ['2','1','1','.','3','2','8','3','3'], ['4','2','2','.','6','5','6','6','7'], ['6','3','3','.','9','8','5','0','0'], ['8','4','5','.','3','1','3','3','3'], ['1','0','5','6','.','6','4','1','6','7'], ['1','2','6','7','.','9','7','0','0','0'], ['1','4','7','9','.','2','9','8','3','3'], ['1','6','9','0','.','6','2','6','6','7'], ['3','/','1'], []]⟩,
  ⟨['E','D','3','_','1','0'], 3, 10, 0, [['!',' ','E','D','3','-','1','0','.','s','c','l'], ['!'], ['E','D','3','-','1','0',' ','-',' ','E','q','u','a','l',' ','d','i','v','i','s','i','o','n',' ','o','f',' ','h','a','r','m','o','n','i','c',' ','3',' ','i','n','t','o',' ','1','0',' ','p','a','r','t','s'], ['1','0'], ['!'], ['1','9','0','.','1','9','5','5','0'], ['3','8','0','.','3','9','1','0','0'], ['5','7','0','.','5','8','6','5','0'], ['7','6','0','.','7','8','2','0','0'], ['9','5','0','.','9','7','7','5','0'], ['1','1','4','1','.','1','7','3','0','0'], ['1','3','3','1','.','3','6','8','5','0'], ['1','5','2','1','.','5','6','4','0','0'], ['1','7','1','1','.','7','5','9','5','0'], ['3','/','1'], []]⟩,
  ⟨['E','D','3','_','1','1'], 3, 11, 0, [['!',' ','E','D','3','-','1','1','.','s','c','l'], ['!'], ['E','D','3','-','1','1',' ','-',' ','E','q','u','a','l',' ','d','i','v','i','s','i','o','n',' ','o','f',' ','h','a','r','m','o','n','i','c',' ','3',' ','i','n','t','o',' ','1','1',' ','p','a','r','t','s'], ['1','1'], ['!'], ['1','7','2','.','9','0','5','0','0'], ['3','4','5','.','8','1','0','0','0'], ['5','1','8','.','7','1','5','0','0'], ['6','9','1','.','6','2','0','0','0'], ['8','6','4','.','5','2','5','0','0'], ['1','0','3','7','.','4','3','0','0','0'], ['1','2','1','0','.','3','3','5','0','0'], ['1','3','8','3','.','2','4','0','0','0'], ['1','5','5','6','.','1','4','5','0','0'], ['1','7','2','9','.','0','5','0','0','0'], ['3','/','1'], []]⟩,
  ⟨['E','D','3','_','1','2'], 3, 12, 0, [['!',' ','E','D','3','-','1','2','.','s','c','l'], ['!'], ['E','D','3','-','1','2',' ','-',' ','E','q','u','a','l',' ','d','i','v','i','s','i','o','n',' ','o','f',' ','h','a','r','m','o','n','i','c',' ','3',' ','i','n','t','o',' ','1','2',' ','p','a','r','t','s'], ['1','2'], ['!'], ['1','5','8','.','4','9','6','2','5'], ['3','1','6','.','9','9','2','5','0'], ['4','7','5','.','4','8','8','7','5'], ['6','3','3','.','9','8','5','0','0'], ['7','9','2','.','4','8','1','2','5'], ['9','5','0','.','9','7','7','5','0'], ['1','1','0','9','.','4','7','3','7','5'], ['1','2','6','7','.','9','7','0','0','0'], ['1','4','2','6','.','4','6','6','2','5'], ['1','5','8','4','.','9','6','2','5','0'], ['1','7','4','3','.','4','5','8','7','5'], ['3','/','1'], []]⟩,
  ⟨['E','D','3','_','1','3'], 3, 13, 0, [['!',' ','E','D','3','-','1','3','.','s','c','l'], ['!'], ['E','D','3','-','1','3',' ','-',' ','E','q','u','a','l',' ','d','i','v','i','s','i','o','n',' ','o','f',' ','h','a','r','m','o','n','i','c',' ','3',' ','i','n','t','o',' ','1','3',' ','p','a','r','t','s'], ['1','3'], ['!'], ['1','4','6','.','3','0','4','2','3'], ['2','9','2','.','6','0','8','4','6'], ['4','3','8','.','9','1','2','6','9'], ['5','8','5','.','2','1','6','9','2'], ['7','3','1','.','5','2','1','1','5'], ['8','7','7','.','8','2','5','3','9'], ['1','0','2','4','.','1','2','9','6','2'], ['1','1','7','0','.','4','3','3','8','5'], ['1','3','1','6','.','7','3','8','0','8'], ['1','4','6','3','.','0','4','2','3','1'], ['1','6','0','9','.','3','4','6','5','4'], ['1','7','5','5','.','6','5','0','7','7'], ['3','/','1'], []]⟩,
  ⟨['E','D','3','_','1','4'], 3, 14, 0, [['!',' ','E','D','3','-','1','4','.','s','c','l'], ['!'], ['E','D','3','-','1','4',' ','-',' ','E','q','u','a','l',' ','d','i','v','i','s','i','o','n',' ','o','f',' ','h','a','r','m','o','n','i','c',' ','3',' ','i','n','t','o',' ','1','4',' ','p','a','r','t','s'], ['1','4'], ['!'], ['1','3','5','.','8','5','3','9','3'], ['2','7','1','.','7','0','7','8','6'], ['4','0','7','.','5','6','1','7','9'], ['5','4','3','.','4','1','5','7','1'], ['6','7','9','.','2','6','9','6','4'], ['8','1','5','.','1','2','3','5','7'], ['9','5','0','.','9','7','7','5','0'], ['1','0','8','6','.','8','3','1','4','3'], ['1','2','2','2','.','6','8','5','3','6'], ['1','3','5','8','.','5','3','9','2','9'], ['1','4','9','4','.','3','9','3','2','1'], ['1','6','3','0','.','2','4','7','1','4'], ['1','7','6','6','.','1','0','1','0','7'], ['3','/','1'], []]⟩,
  ⟨['E','D','3','_','1','5'], 3, 15, 0, [['!',' ','E','D','3','-','1','5','.','s','c','l'], ['!'], ['E','D','3','-','1','5',' ','-',' ','E','q','u','a','l',' ','d','i','v','i','s','i','o','n',' ','o','f',' ','h','a','r','m','o','n','i','c',' ','3',' ','i','n','t','o',' ','1','5',' ','p','a','r','t','s'], ['1','5'], ['!'], ['1','2','6','.','7','9','7','0','0'], ['2','5','3','.','5','9','4','0','0'], ['3','8','0','.','3','9','1','0','0'], ['5','0','7','.','1','8','8','0','0'], ['6','3','3','.','9','8','5','0','0'], ['7','6','0','.','7','8','2','0','0'], ['8','8','7','.','5','7','9','0','0'], ['1','0','1','4','.','3','7','6','0','0'], ['1','1','4','1','.','1','7','3','0','0'], ['1','2','6','7','.','9','7','0','0','0'], ['1','3','9','4','.','7','6','7','0','0'], ['1','5','2','1','.','5','6','4','0','0'], ['1','6','4','8','.','3','6','1','0','0'], ['1','7','7','5','.','1','5','8','0','0'], ['3','/','1'], []]⟩,
  ⟨['E','D','3','_','1','6'], 3, 16, 0, [['!',' ','E','D','3','-','1','6','.','s','c','l'], ['!'], ['E','D','3','-','1','6',' ','-',' ','E','q','u','a','l',' ','d','i','v','i','s','i','o','n',' ','o','f',' ','h','a','r','m','o','n','i','c',' ','3',' ','i','n','t','o',' ','1','6',' ','p','a','r','t','s'], ['1','6'], ['!'], ['1','1','8','.','8','7','2','1','9'], ['2','3','7','.','7','4','4','3','8'], ['3','5','6','.','6','1','6','5','6'], ['4','7','5','.','4','8','8','7','5'], ['5','9','4','.','3','6','0','9','4'], ['7','1','3','.','2','3','3','1','3'], ['8','3','2','.','1','0','5','3','1'], ['9','5','0','.','9','7','7','5','0'], ['1','0','6','9','.','8','4','9','6','9'], ['1','1','8','8','.','7','2','1','8','8'], ['1','3','0','7','.','5','9','4','0','6'], ['1','4','2','6','.','4','6','6','2','5'], ['1','5','4','5','.','3','3','8','4','4'], ['1','6','6','4','.','2','1','0','6','3'], ['1','7','8','3','.','0','8','2','8','1'], ['3','/','1'], []]⟩,
  ⟨['E','D','3','_','1','7'], 3, 17, 0, [['!',' ','E','D','3','-','1','7','.','s','c','l'], ['!'], ['E','D','3','-','1','7',' ','-',' ','E','q','u','a','l',' ','d','i','v','i','s','i','o','n',' ','o','f',' ','h','a','r','m','o','n','i','c',' ','3',' ','i','n','t','o',' ','1','7',' ','p','a','r','t','s'], ['1','7'], ['!'], ['1','1','1','.','8','7','9','7','1'], ['2','2','3','.','7','5','9','4','1'], ['3','3','5','.','6','3','9','1','2'], ['4','4','7','.','5','1','8','8','2'], ['5','5','9','.','3','9','8','5','3'], ['6','7','1','.','2','7','8','2','4'], ['7','8','3','.','1','5','7','9','4'], ['8','9','5','.','0','3','7','6','5'], ['1','0','0','6','.','9','1','7','3','5'], ['1','1','1','8','.','7','9','7','0','6'], ['1','2','3','0','.','6','7','6','7','7'], ['1','3','4','2','.','5','5','6','4','7'], ['1','4','5','4','.','4','3','6','1','8'], ['1','5','6','6','.','3','1','5','8','8'], ['1','6','7','8','.','1','9','5','5','9'], ['1','7','9','0','.','0','7','5','2','9'], ['3','/','1'], []]⟩,
  ⟨['E','D','3','_','1','8'], 3, 18, 0, [['!',' ','E','D','3','-','1','8','.','s','c','l'], ['!'], ['E','D','3','-','1','8',' ','-',' ','E','q','u','a','l',' ','d','i','v','i','s','i','o','n',' ','o','f',' ','h','a','r','m','o','n','i','c',' ','3',' ','i','n','t','o',' ','1','8',' ','p','a','r','t','s'], ['1','8'], ['!'], ['1','0','5','.','6','6','4','1','7'], ['2','1','1','.','3','2','8','3','3'], ['3','1','6','.','9','9','2','5','0'], ['4','2','2','.','6','5','6','6','7'], ['5','2','8','.','3','2','0','8','3'], ['6','3','3','.','9','8','5','0','0'], ['7','3','9','.','6','4','9','1','7'], ['8','4','5','.','3','1','3','3','3'], ['9','5','0','.','9','7','7','5','0'], ['1','0','5','6','.','6','4','1','6','7'], ['1','1','6','2','.','3','0','5','8','3'], ['1','2','6','7','.','9','7','0','0','0'], ['1','3','7','3','.','6','3','4','1','7'], ['1','4','7','9','.','2','9','8','3','3'], ['1','5','8','4','.','9','6','2','5','0'], ['1','6','9','0','.','6','2','6','6','7'], ['1','7','9','6','.','2','9','0','8','3'], ['3','/','1'], []]⟩,
  ⟨['E','D','3','_','1','9'], 3, 19, 0, [['!',' ','E','D','3','-','1','9','.','s','c','l'], ['!'], ['E','D','3','-','1','9',' ','-',' ','E','q','u','a','l',' ','d','i','v','i','s','i','o','n',' ','o','f',' ','h','a','r','m','o','n','i','c',' ','3',' ','i','n','t','o',' ','1','9',' ','p','a','r','t','s'], ['1','9'], ['!'], ['1','0','0','.','1','0','2','8','9'], ['2','0','0','.','2','0','5','7','9'], ['3','0','0','.','3','0','8','6','8'], ['4','0','0','.','4','1','1','5','8'], ['5','0','0','.','5','1','4','4','7'], ['6','0','0','.','6','1','7','3','7'], ['7','0','0','.','7','2','0','2','6'], ['8','0','0','.','8','2','3','1','6'], ['9','0','0','.','9','2','6','0','5'], ['1','0','0','1','.','0','2','8','9','5'], ['1','1','0','1','.','1','3','1','8','4'], ['1','2','0','1','.','2','3','4','7','4'], ['1','3','0','1','.','3','3','7','6','3'], ['1','4','0','1','.','4','4','0','5','3'], ['1','5','0','1','.','5','4','3','4','2'], ['1','6','0','1','.','6','4','6','3','2'], ['1','7','0','1','.','7','4','9','2','1'], ['1','8','0','1','.','8','5','2','1','1'], ['3','/','1'], []]⟩,
  ⟨['E','D','3','_','2','0'], 3, 20, 0, [['!',' ','E','D','3','-','2','0','.','s','c','l'], ['!'], ['E','D','3','-','2','0',' ','-',' ','E','q','u','a','l',' ','d','i','v','i','s','i','o','n',' ','o','f',' ','h','a','r','m','o','n','i','c',' ','3',' ','i','n','t','o',' ','2','0',' ','p','a','r','t','s'], ['2','0'], ['!'], ['9','5','.','0','9','7','7','5'], ['1','9','0','.','1','9','5','5','0'], ['2','8','5','.','2','9','3','2','5'], ['3','8','0','.','3','9','1','0','0'], ['4','7','5','.','4','8','8','7','5'], ['5','7','0','.','5','8','6','5','0'], ['6','6','5','.','6','8','4','2','5'], ['7','6','0','.','7','8','2','0','0'], ['8','5','5','.','8','7','9','7','5'], ['9','5','0','.','9','7','7','5','0'], ['1','0','4','6','.','0','7','5','2','5'], ['1','1','4','1','.','1','7','3','0','0'], ['1','2','3','6','.','2','7','0','7','5'], ['1','3','3','1','.','3','6','8','5','0'], ['1','4','2','6','.','4','6','6','2','5'], ['1','5','2','1','.','5','6','4','0','0'], ['1','6','1','6','.','6','6','1','7','5'], ['1','7','1','1','.','7','5','9','5','0'], ['1','8','0','6','.','8','5','7','2','5'], ['3','/','1'], []]⟩,
  ⟨['E','D','3','_','2','1'], 3, 21, 0, [['!',' ','E','D','3','-','2','1','.','s','c','l'], ['!'], ['E','D','3','-','2','1',' ','-',' ','E','q','u','a','l',' ','d','i','v','i','s','i','o','n',' ','o','f',' ','h','a','r','m','o','n','i','c',' ','3',' ','i','n','t','o',' ','2','1',' ','p','a','r','t','s'], ['2','1'], ['!'], ['9','0','.','5','6','9','2','9'], ['1','8','1','.','1','3','8','5','7'], ['2','7','1','.','7','0','7','8','6'], ['3','6','2','.','2','7','7','1','4'], ['4','5','2','.','8','4','6','4','3'], ['5','4','3','.','4','1','5','7','1'], ['6','3','3','.','9','8','5','0','0'], ['7','2','4','.','5','5','4','2','9'], ['8','1','5','.','1','2','3','5','7'], ['9','0','5','.','6','9','2','8','6'], ['9','9','6','.','2','6','2','1','4'], ['1','0','8','6','.','8','3','1','4','3'], ['1','1','7','7','.','4','0','0','7','1'], ['1','2','6','7','.','9','7','0','0','0'], ['1','3','5','8','.','5','3','9','2','9'], ['1','4','4','9','.','1','0','8','5','7'], ['1','5','3','9','.','6','7','7','8','6'], ['1','6','3','0','.','2','4','7','1','4'], ['1','7','2','0','.','8','1','6','4','3'], ['1','8','1','1','.','3','8','5','7','2'], ['3','/','1'], []]⟩,
  ⟨['E','D','3','_','2','2'], 3, 22, 0, [['!',' ','E','D','3','-','2','2','.','s','c','l'], ['!'], ['E','D','3','-','2','2',' ','-',' ','E','q','u','a','l',' ','d','i','v','i','s','i','o','n',' ','o','f',' ','h','a','r','m','o','n','i','c',' ','3',' ','i','n','t','o',' ','2','2',' ','p','a','r','t','s'], ['2','2'], ['!'], ['8','6','.','4','5','2','5','0'], ['1','7','2','.','9','0','5','0','0'], ['2','5','9','.','3','5','7','5','0'], ['3','4','5','.','8','1','0','0','0'], ['4','3','2','.','2','6','2','5','0'], ['5','1','8','.','7','1','5','0','0'], ['6','0','5','.','1','6','7','5','0'], ['6','9','1','.','6','2','0','0','0'], ['7','7','8','.','0','7','2','5','0'], ['8','6','4','.','5','2','5','0','0'], ['9','5','0','.','9','7','7','5','0'], ['1','0','3','7','.','4','3','0','0','0'], ['1','1','2','3','.','8','8','2','5','0'], ['1','2','1','0','.','3','3','5','0','0'], ['1','2','9','6','.','7','8','7','5','0'], ['1','3','8','3','.','2','4','0','0','0'], ['1','4','6','9','.','6','9','2','5','0'], ['1','5','5','6','.','1','4','5','0','0'], ['1','6','4','2','.','5','9','7','5','0'], ['1','7','2','9','.','0','5','0','0','0'], ['1','8','1','5','.','5','0','2','5','0'], ['3','/','1'], []]⟩,
  ⟨['E','D','3','_','2','3'], 3, 23, 0, [['!',' ','E','D','3','-','2','3','.','s','c','l'], ['!'], ['E','D','3','-','2','3',' ','-',' ','E','q','u','a','l',' ','d','i','v','i','s','i','o','n',' ','o','f',' ','h','a','r','m','o','n','i','c',' ','3',' ','i','n','t','o',' ','2','3',' ','p','a','r','t','s'], ['2','3'], ['!'], ['8','2','.','6','9','3','7','0'], ['1','6','5','.','3','8','7','3','9'], ['2','4','8','.','0','8','1','0','9'], ['3','3','0','.','7','7','4','7','8'], ['4','1','3','.','4','6','8','4','8'], ['4','9','6','.','1','6','2','1','7'], ['5','7','8','.','8','5','5','8','7'], ['6','6','1','.','5','4','9','5','7'], ['7','4','4','.','2','4','3','2','6'], ['8','2','6','.','9','3','6','9','6'], ['9','0','9','.','6','3','0','6','5'], ['9','9','2','.','3','2','4','3','5'], ['1','0','7','5','.','0','1','8','0','4'], ['1','1','5','7','.','7','1','1','7','4'], ['1','2','4','0','.','4','0','5','4','4'], ['1','3','2','3','.','0','9','9','1','3'], ['1','4','0','5','.','7','9','2','8','3'], ['1','4','8','8','.','4','8','6','5','2'], ['1','5','7','1','.','1','8','0','2','2'], ['1','6','5','3','.','8','7','3','9','1'], ['1','7','3','6','.','5','6','7','6','1'], ['1','8','1','9','.','2','6','1','3','1'], ['3','/','1'], []]⟩,
  ⟨['E','D','3','_','2','4'], 3, 24, 0, [['!',' ','E','D','3','-','2','4','.','s','c','l'], ['!'], ['E','D','3','-','2','4',' ','-',' ','E','q','u','a','l',' ','d','i','v','i','s','i','o','n',' ','o','f',' ','h','a','r','m','o','n','i','c',' ','3',' ','i','n','t','o',' ','2','4',' ','p','a','r','t','s'], ['2','4'], ['!'], ['7','9','.','2','4','8','1','3'], ['1','5','8','.','4','9','6','2','5'], ['2','3','7','.','7','4','4','3','8'], ['3','1','6','.','9','9','2','5','0'], ['3','9','6','.','2','4','0','6','3'], ['4','7','5','.','4','8','8','7','5'], ['5','5','4','.','7','3','6','8','8'], ['6','3','3','.','9','8','5','0','0'], ['7','1','3','.','2','3','3','1','3'], ['7','9','2','.','4','8','1','2','5'], ['8','7','1','.','7','2','9','3','8'], ['9','5','0','.','9','7','7','5','0'], ['1','0','3','0','.','2','2','5','6','3'], ['1','1','0','9','.','4','7','3','7','5'], ['1','1','8','8','.','7','2','1','8','8'], ['1','2','6','7','.','9','7','0','0','0'], ['1','3','4','7','.','2','1','8','1','3'], ['1','4','2','6','.','4','6','6','2','5'], ['1','5','0','5','.','7','1','4','3','8'], ['1','5','8','4','.','9','6','2','5','0'], ['1','6','6','4','.','2','1','0','6','3'], ['1','7','4','3','.','4','5','8','7','5'], ['1','8','2','2','.','7','0','6','8','8'], ['3','/','1'], []]⟩,
  ⟨['E','D','3','_','2','5'], 3, 25, 0, [['!',' ','E','D','3','-','2','5','.','s','c','l'], ['!'], ['E','D','3','-','2','5',' ','-',' ','E','q','u','a','l',' ','d','i','v','i','s','i','o','n',' ','o','f',' ','h','a','r','m','o','n','i','c',' ','3',' ','i','n','t','o',' ','2','5',' ','p','a','r','t','s'], ['2','5'], ['!'], ['7','6','.','0','7','8','2','0'], ['1','5','2','.','1','5','6','4','0'], ['2','2','8','.','2','3','4','6','0'], ['3','0','4','.','3','1','2','8','0'], ['3','8','0','.','3','9','1','0','0'], ['4','5','6','.','4','6','9','2','0'], ['5','3','2','.','5','4','7','4','0'], ['6','0','8','.','6','2','5','6','0'], ['6','8','4','.','7','0','3','8','0'], ['7','6','0','.','7','8','2','0','0'], ['8','3','6','.','8','6','0','2','0'], ['9','1','2','.','9','3','8','4','0'], ['9','8','9','.','0','1','6','6','0'], ['1','0','6','5','.','0','9','4','8','0'], ['1','1','4','1','.','1','7','3','0','0'], ['1','2','1','7','.','2','5','1','2','0'], ['1','2','9','3','.','3','2','9','4','0'], ['1','3','6','9','.','4','0','7','6','0'], ['1','4','4','5','.','4','8','5','8','0'], ['1','5','2','1','.','5','6','4','0','0'], ['1','5','9','7','.','6','4','2','2','0'], ['1','6','7','3','.','7','2','0','4','0'], ['1','7','4','9','.','7','9','8','6','0'], ['1','8','2','5','.','8','7','6','8','0'], ['3','/','1'], []]⟩,
  ⟨['E','D','3','_','2','6'], 3, 26, 0, [['!',' ','E','D','3','-','2','6','.','s','c','l'], ['!'], ['E','D','3','-','2','6',' ','-',' ','E','q','u','a','l',' ','d','i','v','i','s','i','o','n',' ','o','f',' ','h','a','r','m','o','n','i','c',' ','3',' ','i','n','t','o',' ','2','6',' ','p','a','r','t','s'], ['2','6'], ['!'], ['7','3','.','1','5','2','1','2'], ['1','4','6','.','3','0','4','2','3'], ['2','1','9','.','4','5','6','3','5'], ['2','9','2','.','6','0','8','4','6'], ['3','6','5','.','7','6','0','5','8'], ['4','3','8','.','9','1','2','6','9'], ['5','1','2','.','0','6','4','8','1'], ['5','8','5','.','2','1','6','9','2'], ['6','5','8','.','3','6','9','0','4'], ['7','3','1','.','5','2','1','1','5'], ['8','0','4','.','6','7','3','2','7'], ['8','7','7','.','8','2','5','3','9'], ['9','5','0','.','9','7','7','5','0'], ['1','0','2','4','.','1','2','9','6','2'], ['1','0','9','7','.','2','8','1','7','3'], ['1','1','7','0','.','4','3','3','8','5'], ['1','2','4','3','.','5','8','5','9','6'], ['1','3','1','6','.','7','3','8','0','8'], ['1','3','8','9','.','8','9','0','1','9'], ['1','4','6','3','.','0','4','2','3','1'], ['1','5','3','6','.','1','9','4','4','2'], ['1','6','0','9','.','3','4','6','5','4'], ['1','6','8','2','.','4','9','8','6','5'], ['1','7','5','5','.','6','5','0','7','7'], ['1','8','2','8','.','8','0','2','8','9'], ['3','/','1'], []]⟩,
  ⟨['E','D','3','_','2','7'], 3, 27, 0, [['!',' ','E','D','3','-','2','7','.','s','c','l'], ['!'], ['E','D','3','-','2','7',' ','-',' ','E','q','u','a','l',' ','d','i','v','i','s','i','o','n',' ','o','f',' ','h','a','r','m','o','n','i','c',' ','3',' ','i','n','t','o',' ','2','7',' ','p','a','r','t','s'], ['2','7'], ['!'], ['7','0','.','4','4','2','7','8'], ['1','4','0','.','8','8','5','5','6'], ['2','1','1','.','3','2','8','3','3'], ['2','8','1','.','7','7','1','1','1'], ['3','5','2','.','2','1','3','8','9'], ['4','2','2','.','6','5','6','6','7'], ['4','9','3','.','0','9','9','4','4'], ['5','6','3','.','5','4','2','2','2'], ['6','3','3','.','9','8','5','0','0'], ['7','0','4','.','4','2','7','7','8'], ['7','7','4','.','8','7','0','5','6'], ['8','4','5','.','3','1','3','3','3'], ['9','1','5','.','7','5','6','1','1'], ['9','8','6','.','1','9','8','8','9'], ['1','0','5','6','.','6','4','1','6','7'], ['1','1','2','7','.','0','8','4','4','4'], ['1','1','9','7','.','5','2','7','2','2'], ['1','2','6','7','.','9','7','0','0','0'], ['1','3','3','8','.','4','1','2','7','8'], ['1','4','0','8','.','8','5','5','5','6'], ['1','4','7','9','.','2','9','8','3','3'], ['1','5','4','9','.','7','4','1','1','1'], ['1','6','2','0','.','1','8','3','8','9'], ['1','6','9','0','.','6','2','6','6','7'], ['1','7','6','1','.','0','6','9','4','5'], ['1','8','3','1','.','5','1','2','2','2'], ['3','/','1'], []]⟩]

/-- surge-tuning/src/ed4.rs 3-563, all its constants. -/
def ed4 : List Entry := [
  ⟨['E','D','4','_','0','9'], 4, 9, 0, [['!',' ','E','D','4','-','0','9','.','s','c','l'], ['!'], ['E','D','4','-','0','9',' ','-',' ','E','q','u','a','l',' ','d','i','v','i','s','i','o','n',' ','o','f',' ','h','a','r','m','o','n','i','c',' ','4',' ','i','n','t','o',' ','9',' ','p','a','r','t','s'], ['9'], ['!'], ['2','6','6','.','6','6','6','6','7'], ['5','3','3','.','3','3','3','3','3'], ['8','0','0','.','0','0','0','0','0'], ['1','0','6','6','.','6','6','6','6','7'], ['1','3','3','3','.','3','3','3','3','3'], ['1','6','0','0','.','0','0','0','0','0'], ['1','8','6','6','.','6','6','6','6','7'], ['2','1','3','3','.','3','3','3','3','3'], ['4','/','1'], []]⟩,
  ⟨['E','D','4','_','1','1'], 4, 11, 0, [['!',' ','E','D','4','-','1','1','.','s','c','l'], ['!'], ['E','D','4','-','1','1',' ','-',' ','E','q','u','a','l',' ','d','i','v','i','s','i','o','n',' ','o','f',' ','h','a','r','m','o','n','i','c',' ','4',' ','i','n','t','o',' ','1','1',' ','p','a','r','t','s'], ['1','1'], ['!'], ['2','1','8','.','1','8','1','8','2'], ['4','3','6','.','3','6','3','6','4'], ['6','5','4','.','5','4','5','4','5'], ['8','7','2','.','7','2','7','2','7'], ['1','0','9','0','.','9','0','9','0','9'], ['1','3','0','9','.','0','9','0','9','1'], ['1','5','2','7','.','2','7','2','7','3'], ['1','7','4','5','.','4','5','4','5','5'], ['1','9','6','3','.','6','3','6','3','6'], ['2','1','8','1','.','8','1','8','1','8'], ['4','/','1'], []]⟩,
  ⟨['E','D','4','_','1','3'], 4, 13, 0, [['!',' ','E','D','4','-','1','3','.','s','c','l'], ['!'], ['E','D','4','-','1','3',' ','-',' ','E','q','u','a','l',' ','d','i','v','i','s','i','o','n',' ','o','f',' ','h','a','r','m','o','n','i','c',' ','4',' ','i','n','t','o',' ','1','3',' ','p','a','r','t','s'], ['1','3'], ['!'], ['1','8','4','.','6','1','5','3','8'], ['3','6','9','.','2','3','0','7','7'], ['5','5','3','.','8','4','6','1','5'], ['7','3','8','.','4','6','1','5','4'], ['9','2','3','.','0','7','6','9','2'], ['1','1','0','7','.','6','9','2','3','1'], ['1','2','9','2','.','3','0','7','6','9'], ['1','4','7','6','.','9','2','3','0','8'], ['1','6','6','1','.','5','3','8','4','6'], ['1','8','4','6','.','1','5','3','8','5'], ['2','0','3','0','.','7','6','9','2','3'], ['2','2','1','5','.','3','8','4','6','2'], ['4','/','1'], []]⟩,
  ⟨['E','D','4','_','1','5'], 4, 15, 0, [['!',' ','E','D','4','-','1','5','.','s','c','l'], ['!'], ['E','D','4','-','1','5',' ','-',' ','E','q','u','a','l',' ','d','i','v','i','s','i','o','n',' ','o','f',' ','h','a','r','m','o','n','i','c',' ','4',' ','i','n','t','o',' ','1','5',' ','p','a','r','t','s'], ['1','5'], ['!'], ['1','6','0','.','0','0','0','0','0'], ['3','2','0','.','0','0','0','0','0'], ['4','8','0','.','0','0','0','0','0'], ['6','4','0','.','0','0','0','0','0'], ['8','0','0','.','0','0','0','0','0'], ['9','6','0','.','0','0','0','0','0'], ['1','1','2','0','.','0','0','0','0','0'], ['1','2','8','0','.','0','0','0','0','0'], ['1','4','4','0','.','0','0','0','0','0'], ['1','6','0','0','.','0','0','0','0','0'], ['1','7','6','0','.','0','0','0','0','0'], ['1','9','2','0','.','0','0','0','0','0'], ['2','0','8','0','.','0','0','0','0','0'], ['2','2','4','0','.','0','0','0','0','0'], ['4','/','1'], []]⟩,
  ⟨['E','D','4','_','1','7'], 4, 17, 0, [['!',' ','E','D','4','-','1','7','.','s','c','l'], ['!'], ['E','D','4','-','1','7',' ','-',' ','E','q','u','a','l',' ','d','i','v','i','s','i','o','n',' ','o','f',' ','h','a','r','m','o','n','i','c',' ','4',' ','i','n','t','o',' ','1','7',' ','p','a','r','t','s'], ['1','7'], ['!'], ['1','4','1','.','1','7','6','4','7'], ['2','8','2','.','3','5','2','9','4'], ['4','2','3','.','5','2','9','4','1'], ['5','6','4','.','7','0','5','8','8'], ['7','0','5','.','8','8','2','3','5'], ['8','4','7','.','0','5','8','8','2'], ['9','8','8','.','2','3','5','2','9'], ['1','1','2','9','.','4','1','1','7','6'], ['1','2','7','0','.','5','8','8','2','4'], ['1','4','1','1','.','7','6','4','7','1'], ['1','5','5','2','.','9','4','1','1','8'], ['1','6','9','4','.','1','1','7','6','5'], ['1','8','3','5','.','2','9','4','1','2'], ['1','9','7','6','.','4','7','0','5','9'], ['2','1','1','7','.','6','4','7','0','6'], ['2','2','5','8','.','8','2','3','5','3'], ['4','/','1'], []]⟩,
  ⟨['E','D','4','_','1','9'], 4, 19, 0, [['!',' ','E','D','4','-','1','9','.','s','c','l'], ['!'], ['E','D','4','-','1','9',' ','-',' ','E','q','u','a','l',' ','d','i','v','i','s','i','o','n',' ','o','f',' ','h','a','r','m','o','n','i','c',' ','4',' ','i','n','t','o',' ','1','9',' ','p','a','r','t','s'], ['1','9'], ['!'], ['1','2','6','.','3','1','5','7','9'], ['2','5','2','.','6','3','1','5','8'], ['3','7','8','.','9','4','7','3','7'], ['5','0','5','.','2','6','3','1','6'], ['6','3','1','.','5','7','8','9','5'], ['7','5','7','.','8','9','4','7','4'], ['8','8','4','.','2','1','0','5','3'], ['1','0','1','0','.','5','2','6','3','2'], ['1','1','3','6','.','8','4','2','1','1'], ['1','2','6','3','.','1','5','7','8','9'], ['1','3','8','9','.','4','7','3','6','8'], ['1','5','1','5','.','7','8','9','4','7'], ['1','6','4','2','.','1','0','5','2','6'], ['1','7','6','8','.','4','2','1','0','5'], ['1','8','9','4','.','7','3','6','8','4'], ['2','0','2','1','.','0','5','2','6','3'], ['2','1','4','7','.','3','6','8','4','2'], ['2','2','7','3','.','6','8','4','2','1'], ['4','/','1'], []]⟩,
  ⟨['E','D','4','_','2','1'], 4, 21, 0, [['!',' ','E','D','4','-','2','1','.','s','c','l'], ['!'], ['E','D','4','-','2','1',' ','-',' ','E','q','u','a','l',' ','d','i','v','i','s','i','o','n',' ','o','f',' ','h','a','r','m','o','n','i','c',' ','4',' ','i','n','t','o',' ','2','1',' ','p','a','r','t','s'], ['2','1'], ['!'], ['1','1','4','.','2','8','5','7','1'], ['2','2','8','.','5','7','1','4','3'], ['3','4','2','.','8','5','7','1','4'], ['4','5','7','.','1','4','2','8','6'], ['5','7','1','.','4','2','8','5','7'], ['6','8','5','.','7','1','4','2','9'], ['8','0','0','.','0','0','0','0','0'], ['9','1','4','.','2','8','5','7','1'], ['1','0','2','8','.','5','7','1','4','3'], ['1','1','4','2','.','8','5','7','1','4'], ['1','2','5','7','.','1','4','2','8','6'], ['1','3','7','1','.','4','2','8','5','7'], ['1','4','8','5','.','7','1','4','2','9'], ['1','6','0','0','.','0','0','0','0','0'], ['1','7','1','4','.','2','8','5','7','1'], ['1','8','2','8','.','5','7','1','4','3'], ['1','9','4','2','.','8','5','7','1','4'], ['2','0','5','7','.','1','4','2','8','6'], ['2','1','7','1','.','4','2','8','5','7'], ['2','2','8','5','.','7','1','4','2','9'], ['4','/','1'], []]⟩,
  ⟨['E','D','4','_','2','3'], 4, 23, 0, [['!',' ','E','D','4','-','2','3','.','s','c','l'], ['!'], ['E','D','4','-','2','3',' ','-',' ','E','q','u','a','l',' ','d','i','v','i','s','i','o','n',' ','o','f',' ','h','a','r','m','o','n','i','c',' ','4',' ','i','n','t','o',' ','2','3',' ','p','a','r','t','s'], ['2','3'], ['!'], ['1','0','4','.','3','4','7','8','3'], ['2','0','8','.','6','9','5','6','5'], ['3','1','3','.','0','4','3','4','8'], ['4','1','7','.','3','9','1','3','0'], ['5','2','1','.','7','3','9','1','3'], ['6','2','6','.','0','8','6','9','6'], ['7','3','0','.','4','3','4','7','8'], ['8','3','4','.','7','8','2','6','1'], ['9','3','9','.','1','3','0','4','3'], ['1','0','4','3','.','4','7','8','2','6'], ['1','1','4','7','.','8','2','6','0','9'], ['1','2','5','2','.','1','7','3','9','1'], ['1','3','5','6','.','5','2','1','7','4'], ['1','4','6','0','.','8','6','9','5','7'], ['1','5','6','5','.','2','1','7','3','9'], ['1','6','6','9','.','5','6','5','2','2'], ['1','7','7','3','.','9','1','3','0','4'], ['1','8','7','8','.','2','6','0','8','7'], ['1','9','8','2','.','6','0','8','7','0'], ['2','0','8','6','.','9','5','6','5','2'], ['2','1','9','1','.','3','0','4','3','5'], ['2','2','9','5','.','6','5','2','1','7'], ['4','/','1'], []]⟩,
  ⟨['E','D','4','_','2','5'], 4, 25, 0, [['!',' ','E','D','4','-','2','5','.','s','c','l'], ['!'], ['E','D','4','-','2','5',' ','-',' ','E','q','u','a','l',' ','d','i','v','i','s','i','o','n',' ','o','f',' ','h','a','r','m','o','n','i','c',' ','4',' ','i','n','t','o',' ','2','5',' ','p','a','r','t','s'], ['2','5'], ['!'], ['9','6','.','0','0','0','0','0'], ['1','9','2','.','0','0','0','0','0'], ['2','8','8','.','0','0','0','0','0'], ['3','8','4','.','0','0','0','0','0'], ['4','8','0','.','0','0','0','0','0'], ['5','7','6','.','0','0','0','0','0'], ['6','7','2','.','0','0','0','0','0'], ['7','6','8','.','0','0','0','0','0'], ['8','6','4','.','0','0','0','0','0'], ['9','6','0','.','0','0','0','0','0'], ['1','0','5','6','.','0','0','0','0','0'], ['1','1','5','2','.','0','0','0','0','0'], ['1','2','4','8','.','0','0','0','0','0'], ['1','3','4','4','.','0','0','0','0','0'], ['1','4','4','0','.','0','0','0','0','0'], ['1','5','3','6','.','0','0','0','0','0'], ['1','6','3','2','.','0','0','0','0','0'], ['1','7','2','8','.','0','0','0','0','0'], ['1','8','2','4','.','0','0','0','0','0'], ['1','9','2','0','.','0','0','0','0','0'], ['2','0','1','6','.','0','0','0','0','0'], ['2','1','1','2','.','0','0','0','0','0'], ['2','2','0','8','.','0','0','0','0','0'], ['2','3','0','4','.','0','0','0','0','0'], ['4','/','1'], []]⟩,
  ⟨['E','D','4','_','2','7'], 4, 27, 0, [['!',' ','E','D','4','-','2','7','.','s','c','l'], ['!'], ['E','D','4','-','2','7',' ','-',' ','E','q','u','a','l',' ','d','i','v','i','s','i','o','n',' ','o','f',' ','h','a','r','m','o','n','i','c',' ','4',' ','i','n','t','o',' ','2','7',' ','p','a','r','t','s'], ['2','7'], ['!'], ['8','8','.','8','8','8','8','9'], ['1','7','7','.','7','7','7','7','8'], ['2','6','6','.','6','6','6','6','7'], ['3','5','5','.','5','5','5','5','6'], ['4','4','4','.','4','4','4','4','4'], ['5','3','3','.','3','3','3','3','3'], ['6','2','2','.','2','2','2','2','2'], ['7','1','1','.','1','1','1','1','1'], ['8','0','0','.','0','0','0','0','0'], ['8','8','8','.','8','8','8','8','9'], ['9','7','7','.','7','7','7','7','8'], ['1','0','6','6','.','6','6','6','6','7'], ['1','1','5','5','.','5','5','5','5','6'], ['1','2','4','4','.','4','4','4','4','4'], ['1','3','3','3','.','3','3','3','3','3'], ['1','4','2','2','.','2','2','2','2','2'], ['1','5','1','1','.','1','1','1','1','1'], ['1','6','0','0','.','0','0','0','0','0'], ['1','6','8','8','.','8','8','8','8','9'], ['1','7','7','7','.','7','7','7','7','8'], ['1','8','6','6','.','6','6','6','6','7'], ['1','9','5','5','.','5','5','5','5','6'], ['2','0','4','4','.','4','4','4','4','4'], ['2','1','3','3','.','3','3','3','3','3'], ['2','2','2','2','.','2','2','2','2','2'], ['2','3','1','1','.','1','1','1','1','1'], ['4','/','1'], []]⟩,
  ⟨['E','D','4','_','2','9'], 4, 29, 0, [['!',' ','E','D','4','-','2','9','.','s','c','l'], ['!'], ['E','D','4','-','2','9',' ','-',' ','E','q','u','a','l',' ','d','i','v','i','s','i','o','n',' ','o','f',' ','h','a','r','m','o','n','i','c',' ','4',' ','i','n','t','o',' ','2','9',' ','p','a','r','t','s'], ['2','9'], ['!'], ['8','2','.','7','5','8','6','2'], ['1','6','5','.','5','1','7','2','4'], ['2','4','8','.','2','7','5','8','6'], ['3','3','1','.','0','3','4','4','8'], ['4','1','3','.','7','9','3','1','0'], ['4','9','6','.','5','5','1','7','2'], ['5','7','9','.','3','1','0','3','4'], ['6','6','2','.','0','6','8','9','7'], ['7','4','4','.','8','2','7','5','9'], ['8','2','7','.','5','8','6','2','1'], ['9','1','0','.','3','4','4','8','3'], ['9','9','3','.','1','0','3','4','5'], ['1','0','7','5','.','8','6','2','0','7'], ['1','1','5','8','.','6','2','0','6','9'], ['1','2','4','1','.','3','7','9','3','1'], ['1','3','2','4','.','1','3','7','9','3'], ['1','4','0','6','.','8','9','6','5','5'], ['1','4','8','9','.','6','5','5','1','7'], ['1','5','7','2','.','4','1','3','7','9'], ['1','6','5','5','.','1','7','2','4','1'], ['1','7','3','7','.','9','3','1','0','3'], ['1','8','2','0','.','6','8','9','6','6'], ['1','9','0','3','.','4','4','8','2','8'], ['1','9','8','6','.','2','0','6','9','0'], ['2','0','6','8','.','9','6','5','5','2'], ['2','1','5','1','.','7','2','4','1','4'], ['2','2','3','4','.','4','8','2','7','6'], ['2','3','1','7','.','2','4','1','3','8'], ['4','/','1'], []]⟩,
  ⟨['E','D','4','_','3','1'], 4, 31, 0, [['!',' ','E','D','4','-','3','1','.','s','c','l'], ['!'], ['E','D','4','-','3','1',' ','-',' ','E','q','u','a','l',' ','d','i','v','i','s','i','o','n',' ','o','f',' ','h','a','r','m','o','n','i','c',' ','4',' ','i','n','t','o',' ','3','1',' ','p','a','r','t','s'], ['3','1'], ['!'], ['7','7','.','4','1','9','3','5'], ['1','5','4','.','8','3','8','7','1'], ['2','3','2','.','2','5','8','0','6'], ['3','0','9','.','6','7','7','4','2'], ['3','8','7','.','0','9','6','7','7'], ['4','6','4','.','5','1','6','1','3'], ['5','4','1','.','9','3','5','4','8'], ['6','1','9','.','3','5','4','8','4'], ['6','9','6','.','7','7','4','1','9'], ['7','7','4','.','1','9','3','5','5'], ['8','5','1','.','6','1','2','9','0'], ['9','2','9','.','0','3','2','2','6'], ['1','0','0','6','.','4','5','1','6','1'], ['1','0','8','3','.','8','7','0','9','7'], ['1','1','6','1','.','2','9','0','3','2'], ['1','2','3','8','.','7','0','9','6','8'], ['1','3','1','6','.','1','2','9','0','3'], ['1','3','9','3','.','5','4','8','3','9'], ['1','4','7','0','.','9','6','7','7','4'], ['1','5','4','8','.','3','8','7','1','0'], ['1','6','2','5','.','8','0','6','4','5'], ['1','7','0','3','.','2','2','5','8','1'], ['1','7','8','0','.','6','4','5','1','6'], ['1','8','5','8','.','0','6','4','5','2'], ['1','9','3','5','.','4','8','3','8','7'], ['2','0','1','2','.','9','0','3','2','3'], ['2','0','9','0','.','3','2','2','5','8'], ['2','1','6','7','.','7','4','1','9','4'], ['2','2','4','5','.','1','6','1','2','9'], ['2','3','2','2','.','5','8','0','6','5'], ['4','/','1'], []]⟩,
  ⟨['E','D','4','_','3','3'], 4, 33, 0, [['!',' ','E','D','4','-','3','3','.','s','c','l'], ['!'], ['E','D','4','-','3','3',' ','-',' ','E','q','u','a','l',' ','d','i','v','i','s','i','o','n',' ','o','f',' ','h','a','r','m','o','n','i','c',' ','4',' ','i','n','t','o',' ','3','3',' ','p','a','r','t','s'], ['3','3'], ['!'], ['7','2','.','7','2','7','2','7'], ['1','4','5','.','4','5','4','5','5'], ['2','1','8','.','1','8','1','8','2'], ['2','9','0','.','9','0','9','0','9'], ['3','6','3','.','6','3','6','3','6'], ['4','3','6','.','3','6','3','6','4'], ['5','0','9','.','0','9','0','9','1'], ['5','8','1','.','8','1','8','1','8'], ['6','5','4','.','5','4','5','4','5'], ['7','2','7','.','2','7','2','7','3'], ['8','0','0','.','0','0','0','0','0'], ['8','7','2','.','7','2','7','2','7'], ['9','4','5','.','4','5','4','5','5'], ['1','0','1','8','.','1','8','1','8','2'], ['1','0','9','0','.','9','0','9','0','9'], ['1','1','6','3','.','6','3','6','3','6'], ['1','2','3','6','.','3','6','3','6','4'], ['1','3','0','9','.','0','9','0','9','1'], ['1','3','8','1','.','8','1','8','1','8'], ['1','4','5','4','.','5','4','5','4','5'], ['1','5','2','7','.','2','7','2','7','3'], ['1','6','0','0','.','0','0','0','0','0'], ['1','6','7','2','.','7','2','7','2','7'], ['1','7','4','5','.','4','5','4','5','5'], ['1','8','1','8','.','1','8','1','8','2'], ['1','8','9','0','.','9','0','9','0','9'], ['1','9','6','3','.','6','3','6','3','6'], ['2','0','3','6','.','3','6','3','6','4'], ['2','1','0','9','.','0','9','0','9','1'], ['2','1','8','1','.','8','1','8','1','8'], ['2','2','5','4','.','5','4','5','4','5'], ['2','3','2','7','.','2','7','2','7','3'], ['4','/','1'], []]⟩,
  ⟨['E','D','4','_','3','5'], 4, 35, 0, [['!',' ','E','D','4','-','3','5','.','s','c','l'], ['!'], ['E','D','4','-','3','5',' ','-',' ','E','q','u','a','l',' ','d','i','v','i','s','i','o','n',' ','o','f',' ','h','a','r','m','o','n','i','c',' ','4',' ','i','n','t','o',' ','3','5',' ','p','a','r','t','s'], ['3','5'], ['!'], ['6','8','.','5','7','1','4','3'], ['1','3','7','.','1','4','2','8','6'], ['2','0','5','.','7','1','4','2','9'], ['2','7','4','.','2','8','5','7','1'], ['3','4','2','.','8','5','7','1','4'], ['4','1','1','.','4','2','8','5','7'], ['4','8','0','.','0','0','0','0','0'], ['5','4','8','.','5','7','1','4','3'], ['6','1','7','.','1','4','2','8','6'], ['6','8','5','.','7','1','4','2','9'], ['7','5','4','.','2','8','5','7','1'], ['8','2','2','.','8','5','7','1','4'], ['8','9','1','.','4','2','8','5','7'], ['9','6','0','.','0','0','0','0','0'], ['1','0','2','8','.','5','7','1','4','3'], ['1','0','9','7','.','1','4','2','8','6'], ['1','1','6','5','.','7','1','4','2','9'], ['1','2','3','4','.','2','8','5','7','1'], ['1','3','0','2','.','8','5','7','1','4'], ['1','3','7','1','.','4','2','8','5','7'], ['1','4','4','0','.','0','0','0','0','0'], ['1','5','0','8','.','5','7','1','4','3'], ['1','5','7','7','.','1','4','2','8','6'], ['1','6','4','5','.','7','1','4','2','9'], ['1','7','1','4','.','2','8','5','7','1'], ['1','7','8','2','.','8','5','7','1','4'], ['1','8','5','1','.','4','2','8','5','7'], ['1','9','2','0','.','0','0','0','0','0'], ['1','9','8','8','.','5','7','1','4','3'], ['2','0','5','7','.','1','4','2','8','6'], ['2','1','2','5','.','7','1','4','2','9'], ['2','1','9','4','.','2','8','5','7','1'], ['2','2','6','2','.','8','5','7','1','4'], ['2','3','3','1','.','4','2','8','5','7'], ['4','/','1'], []]⟩,
  ⟨['E','D','4','_','3','7'], 4, 37, 0, [['!',' ','E','D','4','-','3','7','.','s','c','l'], ['!'], ['E','D','4','-','3','7',' ','-',' ','E','q','u','a','l',' ','d','i','v','i','s','i','o','n',' ','o','f',' ','h','a','r','m','o','n','i','c',' ','4',' ','i','n','t','o',' ','3','7',' ','p','a','r','t','s'], ['3','7'], ['!'], ['6','4','.','8','6','4','8','6'], ['1','2','9','.','7','2','9','7','3'], ['1','9','4','.','5','9','4','5','9'], ['2','5','9','.','4','5','9','4','6'], ['3','2','4','.','3','2','4','3','2'], ['3','8','9','.','1','8','9','1','9'], ['4','5','4','.','0','5','4','0','5'], ['5','1','8','.','9','1','8','9','2'], ['5','8','3','.','7','8','3','7','8'], ['6','4','8','.','6','4','8','6','5'], ['7','1','3','.','5','1','3','5','1'], ['7','7','8','.','3','7','8','3','8'], ['8','4','3','.','2','4','3','2','4'], ['9','0','8','.','1','0','8','1','1'], ['9','7','2','.','9','7','2','9','7'], ['1','0','3','7','.','8','3','7','8','4'], ['1','1','0','2','.','7','0','2','7','0'], ['1','1','6','7','.','5','6','7','5','7'], ['1','2','3','2','.','4','3','2','4','3'], ['1','2','9','7','.','2','9','7','3','0'], ['1','3','6','2','.','1','6','2','1','6'], ['1','4','2','7','.','0','2','7','0','3'], ['1','4','9','1','.','8','9','1','8','9'], ['1','5','5','6','.','7','5','6','7','6'], ['1','6','2','1','.','6','2','1','6','2'], ['1','6','8','6','.','4','8','6','4','9'], ['1','7','5','1','.','3','5','1','3','5'], ['1','8','1','6','.','2','1','6','2','2'], ['1','8','8','1','.','0','8','1','0','8'], ['1','9','4','5','.','9','4','5','9','5'], ['2','0','1','0','.','8','1','0','8','1'], ['2','0','7','5','.','6','7','5','6','8'], ['2','1','4','0','.','5','4','0','5','4'], ['2','2','0','5','.','4','0','5','4','1'], ['2','2','7','0','.','2','7','0','2','7'], ['2','3','3','5','.','1','3','5','1','4'], ['4','/','1'], []]⟩,
  ⟨['E','D','4','_','3','9'], 4, 39, 0, [['!',' ','E','D','4','-','3','9','.','s','c','l'], ['!'], ['E','D','4','-','3','9',' ','-',' ','E','q','u','a','l',' ','d','i','v','i','s','i','o','n',' ','o','f',' ','h','a','r','m','o','n','i','c',' ','4',' ','i','n','t','o',' ','3','9',' ','p','a','r','t','s'], ['3','9'], ['!'], ['6','1','.','5','3','8','4','6'], ['1','2','3','.','0','7','6','9','2'], ['1','8','4','.','6','1','5','3','8'], ['2','4','6','.','1','5','3','8','5'], ['3','0','7','.','6','9','2','3','1'], ['3','6','9','.','2','3','0','7','7'], ['4','3','0','.','7','6','9','2','3'], ['4','9','2','.','3','0','7','6','9'], ['5','5','3','.','8','4','6','1','5'], ['6','1','5','.','3','8','4','6','2'], ['6','7','6','.','9','2','3','0','8'], ['7','3','8','.','4','6','1','5','4'], ['8','0','0','.','0','0','0','0','0'], ['8','6','1','.','5','3','8','4','6'], ['9','2','3','.','0','7','6','9','2'], ['9','8','4','.','6','1','5','3','8'], ['1','0','4','6','.','1','5','3','8','5'], ['1','1','0','7','.','6','9','2','3','1'], ['1','1','6','9','.','2','3','0','7','7'], ['1','2','3','0','.','7','6','9','2','3'], ['1','2','9','2','.','3','0','7','6','9'], ['1','3','5','3','.','8','4','6','1','5'], ['1','4','1','5','.','3','8','4','6','2'], ['1','4','7','6','.','9','2','3','0','8'], ['1','5','3','8','.','4','6','1','5','4'], ['1','6','0','0','.','0','0','0','0','0'], ['1','6','6','1','.','5','3','8','4','6'], ['1','7','2','3','.','0','7','6','9','2'], ['1','7','8','4','.','6','1','5','3','8'], ['1','8','4','6','.','1','5','3','8','5'], ['1','9','0','7','.','6','9','2','3','1'], ['1','9','6','9','.','2','3','0','7','7'], ['2','0','3','0','.','7','6','9','2','3'], ['2','0','9','2','.','3','0','7','6','9'], ['2','1','5','3','.','8','4','6','1','5'], ['2','2','1','5','.','3','8','4','6','2'], ['2','2','7','6','.','9','2','3','0','8'], ['2','3','3','8','.','4','6','1','5','4'], ['4','/','1'], []]⟩,
  ⟨['E','D','4','_','4','1'], 4, 41, 0, [['!',' ','E','D','4','-','4','1','.','s','c','l'], ['!'], ['E','D','4','-','4','1',' ','-',' ','E','q','u','a','l',' ','d','i','v','i','s','i','o','n',' ','o','f',' ','h','a','r','m','o','n','i','c',' ','4',' ','i','n','t','o',' ','4','1',' ','p','a','r','t','s'], ['4','1'], ['!'], ['5','8','.','5','3','6','5','9'], ['1','1','7','.','0','7','3','1','7'], ['1','7','5','.','6','0','9','7','6'], ['2','3','4','.','1','4','6','3','4'], ['2','9','2','.','6','8','2','9','3'], ['3','5','1','.','2','1','9','5','1'], ['4','0','9','.','7','5','6','1','0'], ['4','6','8','.','2','9','2','6','8'], ['5','2','6','.','8','2','9','2','7'], ['5','8','5','.','3','6','5','8','5'], ['6','4','3','.','9','0','2','4','4'], ['7','0','2','.','4','3','9','0','2'], ['7','6','0','.','9','7','5','6','1'], ['8','1','9','.','5','1','2','2','0'], ['8','7','8','.','0','4','8','7','8'], ['9','3','6','.','5','8','5','3','7'], ['9','9','5','.','1','2','1','9','5'], ['1','0','5','3','.','6','5','8','5','4'], ['1','1','1','2','.','1','9','5','1','2'], ['1','1','7','0','.','7','3','1','7','1'], ['1','2','2','9','.','2','6','8','2','9'], ['1','2','8','7','.','8','0','4','8','8'], ['1','3','4','6','.','3','4','1','4','6'], ['1','4','0','4','.','8','7','8','0','5'], ['1','4','6','3','.','4','1','4','6','3'], ['1','5','2','1','.','9','5','1','2','2'], ['1','5','8','0','.','4','8','7','8','0'], ['1','6','3','9','.','0','2','4','3','9'], ['1','6','9','7','.','5','6','0','9','8'], ['1','7','5','6','.','0','9','7','5','6'], ['1','8','1','4','.','6','3','4','1','5'], ['1','8','7','3','.','1','7','0','7','3'], ['1','9','3','1','.','7','0','7','3','2'], ['1','9','9','0','.','2','4','3','9','0'], ['2','0','4','8','.','7','8','0','4','9'], ['2','1','0','7','.','3','1','7','0','7'], ['2','1','6','5','.','8','5','3','6','6'], ['2','2','2','4','.','3','9','0','2','4'], ['2','2','8','2','.','9','2','6','8','3'], ['2','3','4','1','.','4','6','3','4','1'], ['4','/','1'], []]⟩]

/-- surge-tuning/src/hd2.rs 3-235, all its constants. -/
def hd2 : List Entry := [
  ⟨['H','D','2','_','0','4','_','0','8'], 2, 4, 8, [['!',' ','H','D','2',' ','0','4','-','0','8','.','s','c','l'], ['!'], ['H','D','2',' ','0','4','-','0','8',' ','-',' ','H','a','r','m','o','n','i','c',' ','d','i','v','i','s','i','o','n',' ','o','f',' ','2',':',' ','H','a','r','m','o','n','i','c','s',' ','0','4','-','0','8'], ['4'], ['!'], ['5','/','4'], ['3','/','2'], ['7','/','4'], ['2','/','1'], []]⟩,
  ⟨['H','D','2','_','0','5','_','1','0'], 2, 5, 10, [['!',' ','H','D','2',' ','0','5','-','1','0','.','s','c','l'], ['!'], ['H','D','2',' ','0','5','-','1','0',' ','-',' ','H','a','r','m','o','n','i','c',' ','d','i','v','i','s','i','o','n',' ','o','f',' ','2',':',' ','H','a','r','m','o','n','i','c','s',' ','0','5','-','1','0'], ['5'], ['!'], ['6','/','5'], ['7','/','5'], ['8','/','5'], ['9','/','5'], ['2','/','1'], []]⟩,
  ⟨['H','D','2','_','0','6','_','1','2'], 2, 6, 12, [['!',' ','H','D','2',' ','0','6','-','1','2','.','s','c','l'], ['!'], ['H','D','2',' ','0','6','-','1','2',' ','-',' ','H','a','r','m','o','n','i','c',' ','d','i','v','i','s','i','o','n',' ','o','f',' ','2',':',' ','H','a','r','m','o','n','i','c','s',' ','0','6','-','1','2'], ['6'], ['!'], ['7','/','6'], ['4','/','3'], ['3','/','2'], ['5','/','3'], ['1','1','/','6'], ['2','/','1'], []]⟩,
  ⟨['H','D','2','_','0','7','_','1','4'], 2, 7, 14, [['!',' ','H','D','2',' ','0','7','-','1','4','.','s','c','l'], ['!'], ['H','D','2',' ','0','7','-','1','4',' ','-',' ','H','a','r','m','o','n','i','c',' ','d','i','v','i','s','i','o','n',' ','o','f',' ','2',':',' ','H','a','r','m','o','n','i','c','s',' ','0','7','-','1','4'], ['7'], ['!'], ['8','/','7'], ['9','/','7'], ['1','0','/','7'], ['1','1','/','7'], ['1','2','/','7'], ['1','3','/','7'], ['2','/','1'], []]⟩,
  ⟨['H','D','2','_','0','8','_','1','6'], 2, 8, 16, [['!',' ','H','D','2',' ','0','8','-','1','6','.','s','c','l'], ['!'], ['H','D','2',' ','0','8','-','1','6',' ','-',' ','H','a','r','m','o','n','i','c',' ','d','i','v','i','s','i','o','n',' ','o','f',' ','2',':',' ','H','a','r','m','o','n','i','c','s',' ','0','8','-','1','6'], ['8'], ['!'], ['9','/','8'], ['5','/','4'], ['1','1','/','8'], ['3','/','2'], ['1','3','/','8'], ['7','/','4'], ['1','5','/','8'], ['2','/','1'], []]⟩,
  ⟨['H','D','2','_','0','9','_','1','8'], 2, 9, 18, [['!',' ','H','D','2',' ','0','9','-','1','8','.','s','c','l'], ['!'], ['H','D','2',' ','0','9','-','1','8',' ','-',' ','H','a','r','m','o','n','i','c',' ','d','i','v','i','s','i','o','n',' ','o','f',' ','2',':',' ','H','a','r','m','o','n','i','c','s',' ','0','9','-','1','8'], ['9'], ['!'], ['1','0','/','9'], ['1','1','/','9'], ['4','/','3'], ['1','3','/','9'], ['1','4','/','9'], ['5','/','3'], ['1','6','/','9'], ['1','7','/','9'], ['2','/','1'], []]⟩,
  ⟨['H','D','2','_','1','0','_','2','0'], 2, 10, 20, [['!',' ','H','D','2',' ','1','0','-','2','0','.','s','c','l'], ['!'], ['H','D','2',' ','1','0','-','2','0',' ','-',' ','H','a','r','m','o','n','i','c',' ','d','i','v','i','s','i','o','n',' ','o','f',' ','2',':',' ','H','a','r','m','o','n','i','c','s',' ','1','0','-','2','0'], ['1','0'], ['!'], ['1','1','/','1','0'], ['6','/','5'], ['1','3','/','1','0'], ['7','/','5'], ['3','/','2'], ['8','/','5'], ['1','7','/','1','0'], ['9','/','5'], ['1','9','/','1','0'], ['2','/','1'], []]⟩,
  ⟨['H','D','2','_','1','1','_','2','2'], 2, 11, 22, [['!',' ','H','D','2',' ','1','1','-','2','2','.','s','c','l'], ['!'], ['H','D','2',' ','1','1','-','2','2',' ','-',' ','H','a','r','m','o','n','i','c',' ','d','i','v','i','s','i','o','n',' ','o','f',' ','2',':',' ','H','a','r','m','o','n','i','c','s',' ','1','1','-','2','2'], ['1','1'], ['!'], ['1','2','/','1','1'], ['1','3','/','1','1'], ['1','4','/','1','1'], ['1','5','/','1','1'], ['1','6','/','1','1'], ['1','7','/','1','1'], ['1','8','/','1','1'], ['1','9','/','1','1'], ['2','0','/','1','1'], ['2','1','/','1','1'], ['2','/','1'], []]⟩,
  ⟨['H','D','2','_','1','2','_','2','4'], 2, 12, 24, [['!',' ','H','D','2',' ','1','2','-','2','4','.','s','c','l'], ['!'], ['H','D','2',' ','1','2','-','2','4',' ','-',' ','H','a','r','m','o','n','i','c',' ','d','i','v','i','s','i','o','n',' ','o','f',' ','2',':',' ','H','a','r','m','o','n','i','c','s',' ','1','2','-','2','4'], ['1','2'], ['!'], ['1','3','/','1','2'], ['7','/','6'], ['5','/','4'], ['4','/','3'], ['1','7','/','1','2'], ['3','/','2'], ['1','9','/','1','2'], ['5','/','3'], ['7','/','4'], ['1','1','/','6'], ['2','3','/','1','2'], ['2','/','1'], []]⟩,
  ⟨['H','D','2','_','1','3','_','2','6'], 2, 13, 26, [['!',' ','H','D','2',' ','1','3','-','2','6','.','s','c','l'], ['!'], ['H','D','2',' ','1','3','-','2','6',' ','-',' ','H','a','r','m','o','n','i','c',' ','d','i','v','i','s','i','o','n',' ','o','f',' ','2',':',' ','H','a','r','m','o','n','i','c','s',' ','1','3','-','2','6'], ['1','3'], ['!'], ['1','4','/','1','3'], ['1','5','/','1','3'], ['1','6','/','1','3'], ['1','7','/','1','3'], ['1','8','/','1','3'], ['1','9','/','1','3'], ['2','0','/','1','3'], ['2','1','/','1','3'], ['2','2','/','1','3'], ['2','3','/','1','3'], ['2','4','/','1','3'], ['2','5','/','1','3'], ['2','/','1'], []]⟩,
  ⟨['H','D','2','_','1','4','_','2','8'], 2, 14, 28, [['!',' ','H','D','2',' ','1','4','-','2','8','.','s','c','l'], ['!'], ['H','D','2',' ','1','4','-','2','8',' ','-',' ','H','a','r','m','o','n','i','c',' ','d','i','v','i','s','i','o','n',' ','o','f',' ','2',':',' ','H','a','r','m','o','n','i','c','s',' ','1','4','-','2','8'], ['1','4'], ['!'], ['1','5','/','1','4'], ['8','/','7'], ['1','7','/','1','4'], ['9','/','7'], ['1','9','/','1','4'], ['1','0','/','7'], ['3','/','2'], ['1','1','/','7'], ['2','3','/','1','4'], ['1','2','/','7'], ['2','5','/','1','4'], ['1','3','/','7'], ['2','7','/','1','4'], ['2','/','1'], []]⟩,
  ⟨['H','D','2','_','1','5','_','3','0'], 2, 15, 30, [['!',' ','H','D','2',' ','1','5','-','3','0','.','s','c','l'], ['!'], ['H','D','2',' ','1','5','-','3','0',' ','-',' ','H','a','r','m','o','n','i','c',' ','d','i','v','i','s','i','o','n',' ','o','f',' ','2',':',' ','H','a','r','m','o','n','i','c','s',' ','1','5','-','3','0'], ['1','5'], ['!'], ['1','6','/','1','5'], ['1','7','/','1','5'], ['6','/','5'], ['1','9','/','1','5'], ['4','/','3'], ['7','/','5'], ['2','2','/','1','5'], ['2','3','/','1','5'], ['8','/','5'], ['5','/','3'], ['2','6','/','1','5'], ['9','/','5'], ['2','8','/','1','5'], ['2','9','/','1','5'], ['2','/','1'], []]⟩,
  ⟨['H','D','2','_','1','6','_','3','2'], 2, 16, 32, [['!',' ','H','D','2',' ','1','6','-','3','2','.','s','c','l'], ['!'], ['H','D','2',' ','1','6','-','3','2',' ','-',' ','H','a','r','m','o','n','i','c',' ','d','i','v','i','s','i','o','n',' ','o','f',' ','2',':',' ','H','a','r','m','o','n','i','c','s',' ','1','6','-','3','2'], ['1','6'], ['!'], ['1','7','/','1','6'], ['9','/','8'], ['1','9','/','1','6'], ['5','/','4'], ['2','1','/','1','6'], ['1','1','/','8'], ['2','3','/','1','6'], ['3','/','2'], ['2','5','/','1','6'], ['1','3','/','8'], ['2','7','/','1','6'], ['7','/','4'], ['2','9','/','1','6'], ['1','5','/','8'], ['3','1','/','1','6'], ['2','/','1'], []]⟩]

/-- surge-tuning/src/hd3.rs 3-367, all its constants. -/
def hd3 : List Entry := [
  ⟨['H','D','3','_','0','4','_','1','2'], 3, 4, 12, [['!',' ','H','D','3',' ','0','4','-','1','2','.','s','c','l'], ['!'], ['H','D','3',' ','0','4','-','1','2',' ','-',' ','H','a','r','m','o','n','i','c',' ','d','i','v','i','s','i','o','n',' ','o','f',' ','3',':',' ','H','a','r','m','o','n','i','c','s',' ','0','4','-','1','2'], ['8'], ['!'], ['5','/','4'], ['3','/','2'], ['7','/','4'], ['2','/','1'], ['9','/','4'], ['5','/','2'], ['1','1','/','4'], ['3','/','1'], []]⟩,
  ⟨['H','D','3','_','0','5','_','1','5'], 3, 5, 15, [['!',' ','H','D','3',' ','0','5','-','1','5','.','s','c','l'], ['!'], ['H','D','3',' ','0','5','-','1','5',' ','-',' ','H','a','r','m','o','n','i','c',' ','d','i','v','i','s','i','o','n',' ','o','f',' ','3',':',' ','H','a','r','m','o','n','i','c','s',' ','0','5','-','1','5'], ['1','0'], ['!'], ['6','/','5'], ['7','/','5'], ['8','/','5'], ['9','/','5'], ['2','/','1'], ['1','1','/','5'], ['1','2','/','5'], ['1','3','/','5'], ['1','4','/','5'], ['3','/','1'], []]⟩,
  ⟨['H','D','3','_','0','6','_','1','8'], 3, 6, 18, [['!',' ','H','D','3',' ','0','6','-','1','8','.','s','c','l'], ['!'], ['H','D','3',' ','0','6','-','1','8',' ','-',' ','H','a','r','m','o','n','i','c',' ','d','i','v','i','s','i','o','n',' ','o','f',' ','3',':',' ','H','a','r','m','o','n','i','c','s',' ','0','6','-','1','8'], ['1','2'], ['!'], ['7','/','6'], ['4','/','3'], ['3','/','2'], ['5','/','3'], ['1','1','/','6'], ['2','/','1'], ['1','3','/','6'], ['7','/','3'], ['5','/','2'], ['8','/','3'], ['1','7','/','6'], ['3','/','1'], []]⟩,
  ⟨['H','D','3','_','0','7','_','2','1'], 3, 7, 21, [['!',' ','H','D','3',' ','0','7','-','2','1','.','s','c','l'], ['!'], ['H','D','3',' ','0','7','-','2','1',' ','-',' ','H','a','r','m','o','n','i','c',' ','d','i','v','i','s','i','o','n',' ','o','f',' ','3',':',' ','H','a','r','m','o','n','i','c','s',' ','0','7','-','2','1'], ['1','4'], ['!'], ['8','/','7'], ['9','/','7'], ['1','0','/','7'], ['1','1','/','7'], ['1','2','/','7'], ['1','3','/','7'], ['2','/','1'], ['1','5','/','7'], ['1','6','/','7'], ['1','7','/','7'], ['1','8','/','7'], ['1','9','/','7'], ['2','0','/','7'], ['3','/','1'], []]⟩,
  ⟨['H','D','3','_','0','8','_','2','4'], 3, 8, 24, [['!',' ','H','D','3',' ','0','8','-','2','4','.','s','c','l'], ['!'], ['H','D','3',' ','0','8','-','2','4',' ','-',' ','H','a','r','m','o','n','i','c',' ','d','i','v','i','s','i','o','n',' ','o','f',' ','3',':',' ','H','a','r','m','o','n','i','c','s',' ','0','8','-','2','4'], ['1','6'], ['!'], ['9','/','8'], ['5','/','4'], ['1','1','/','8'], ['3','/','2'], ['1','3','/','8'], ['7','/','4'], ['1','5','/','8'], ['2','/','1'], ['1','7','/','8'], ['9','/','4'], ['1','9','/','8'], ['5','/','2'], ['2','1','/','8'], ['1','1','/','4'], ['2','3','/','8'], ['3','/','1'], []]⟩,
  ⟨['H','D','3','_','0','9','_','2','7'], 3, 9, 27, [['!',' ','H','D','3',' ','0','9','-','2','7','.','s','c','l'], ['!'], ['H','D','3',' ','0','9','-','2','7',' ','-',' ','H','a','r','m','o','n','i','c',' ','d','i','v','i','s','i','o','n',' ','o','f',' ','3',':',' ','H','a','r','m','o','n','i','c','s',' ','0','9','-','2','7'], ['1','8'], ['!'], ['1','0','/','9'], ['1','1','/','9'], ['4','/','3'], ['1','3','/','9'], ['1','4','/','9'], ['5','/','3'], ['1','6','/','9'], ['1','7','/','9'], ['2','/','1'], ['1','9','/','9'], ['2','0','/','9'], ['7','/','3'], ['2','2','/','9'], ['2','3','/','9'], ['8','/','3'], ['2','5','/','9'], ['2','6','/','9'], ['3','/','1'], []]⟩,
  ⟨['H','D','3','_','1','0','_','3','0'], 3, 10, 30, [['!',' ','H','D','3',' ','1','0','-','3','0','.','s','c','l'], ['!'], ['H','D','3',' ','1','0','-','3','0',' ','-',' ','H','a','r','m','o','n','i','c',' ','d','i','v','i','s','i','o','n',' ','o','f',' ','3',':',' ','H','a','r','m','o','n','i','c','s',' ','1','0','-','3','0'], ['2','0'], ['!'], ['1','1','/','1','0'], ['6','/','5'], ['1','3','/','1','0'], ['7','/','5'], ['3','/','2'], ['8','/','5'], ['1','7','/','1','0'], ['9','/','5'], ['1','9','/','1','0'], ['2','/','1'], ['2','1','/','1','0'], ['1','1','/','5'], ['2','3','/','1','0'], ['1','2','/','5'], ['5','/','2'], ['1','3','/','5'], ['2','7','/','1','0'], ['1','4','/','5'], ['2','9','/','1','0'], ['3','/','1'], []]⟩,
  ⟨['H','D','3','_','1','1','_','3','3'], 3, 11, 33, [['!',' ','H','D','3',' ','1','1','-','3','3','.','s','c','l'], ['!'], ['H','D','3',' ','1','1','-','3','3',' ','-',' ','H','a','r','m','o','n','i','c',' ','d','i','v','i','s','i','o','n',' ','o','f',' ','3',':',' ','H','a','r','m','o','n','i','c','s',' ','1','1','-','3','3'], ['2','2'], ['!'], ['1','2','/','1','1'], ['1','3','/','1','1'], ['1','4','/','1','1'], ['1','5','/','1','1'], ['1','6','/','1','1'], ['1','7','/','1','1'], ['1','8','/','1','1'], ['1','9','/','1','1'], ['2','0','/','1','1'], ['2','1','/','1','1'], ['2','/','1'], ['2','3','/','1','1'], ['2','4','/','1','1'], ['2','5','/','1','1'], ['2','6','/','1','1'], ['2','7','/','1','1'], ['2','8','/','1','1'], ['2','9','/','1','1'], ['3','0','/','1','1'], ['3','1','/','1','1'], ['3','2','/','1','1'], ['3','/','1'], []]⟩,
  ⟨['H','D','3','_','1','2','_','3','6'], 3, 12, 36, [['!',' ','H','D','3',' ','1','2','-','3','6','.','s','c','l'], ['!'], ['H','D','3',' ','1','2','-','3','6',' ','-',' ','H','a','r','m','o','n','i','c',' ','d','i','v','i','s','i','o','n',' ','o','f',' ','3',':',' ','H','a','r','m','o','n','i','c','s',' ','1','2','-','3','6'], ['2','4'], ['!'], ['1','3','/','1','2'], ['7','/','6'], ['5','/','4'], ['4','/','3'], ['1','7','/','1','2'], ['3','/','2'], ['1','9','/','1','2'], ['5','/','3'], ['7','/','4'], ['1','1','/','6'], ['2','3','/','1','2'], ['2','/','1'], ['2','5','/','1','2'], ['1','3','/','6'], ['9','/','4'], ['7','/','3'], ['2','9','/','1','2'], ['5','/','2'], ['3','1','/','1','2'], ['8','/','3'], ['1','1','/','4'], ['1','7','/','6'], ['3','5','/','1','2'], ['3','/','1'], []]⟩,
  ⟨['H','D','3','_','1','3','_','3','9'], 3, 13, 39, [['!',' ','H','D','3',' ','1','3','-','3','9','.','s','c','l'], ['!'], ['H','D','3',' ','1','3','-','3','9',' ','-',' ','H','a','r','m','o','n','i','c',' ','d','i','v','i','s','i','o','n',' ','o','f',' ','3',':',' ','H','a','r','m','o','n','i','c','s',' ','1','3','-','3','9'], ['2','6'], ['!'], ['1','4','/','1','3'], ['1','5','/','1','3'], ['1','6','/','1','3'], ['1','7','/','1','3'], ['1','8','/','1','3'], ['1','9','/','1','3'], ['2','0','/','1','3'], ['2','1','/','1','3'], ['2','2','/','1','3'], ['2','3','/','1','3'], ['2','4','/','1','3'], ['2','5','/','1','3'], ['2','/','1'], ['2','7','/','1','3'], ['2','8','/','1','3'], ['2','9','/','1','3'], ['3','0','/','1','3'], ['3','1','/','1','3'], ['3','2','/','1','3'], ['3','3','/','1','3'], ['3','4','/','1','3'], ['3','5','/','1','3'], ['3','6','/','1','3'], ['3','7','/','1','3'], ['3','8','/','1','3'], ['3','/','1'], []]⟩,
  ⟨['H','D','3','_','1','4','_','4','2'], 3, 14, 42, [['!',' ','H','D','3',' ','1','4','-','4','2','.','s','c','l'], ['!'], ['H','D','3',' ','1','4','-','4','2',' ','-',' ','H','a','r','m','o','n','i','c',' ','d','i','v','i','s','i','o','n',' ','o','f',' ','3',':',' ','H','a','r','m','o','n','i','c','s',' ','1','4','-','4','2'], ['2','8'], ['!'], ['1','5','/','1','4'], ['8','/','7'], ['1','7','/','1','4'], ['9','/','7'], ['1','9','/','1','4'], ['1','0','/','7'], ['3','/','2'], ['1','1','/','7'], ['2','3','/','1','4'], ['1','2','/','7'], ['2','5','/','1','4'], ['1','3','/','7'], ['2','7','/','1','4'], ['2','/','1'], ['2','9','/','1','4'], ['1','5','/','7'], ['3','1','/','1','4'], ['1','6','/','7'], ['3','3','/','1','4'], ['1','7','/','7'], ['5','/','2'], ['1','8','/','7'], ['3','7','/','1','4'], ['1','9','/','7'], ['3','9','/','1','4'], ['2','0','/','7'], ['4','1','/','1','4'], ['3','/','1'], []]⟩,
  ⟨['H','D','3','_','1','5','_','4','5'], 3, 15, 45, [['!',' ','H','D','3',' ','1','5','-','4','5','.','s','c','l'], ['!'], ['H','D','3',' ','1','5','-','4','5',' ','-',' ','H','a','r','m','o','n','i','c',' ','d','i','v','i','s','i','o','n',' ','o','f',' ','3',':',' ','H','a','r','m','o','n','i','c','s',' ','1','5','-','4','5'], ['3','0'], ['!'], ['1','6','/','1','5'], ['1','7','/','1','5'], ['6','/','5'], ['1','9','/','1','5'], ['4','/','3'], ['7','/','5'], ['2','2','/','1','5'], ['2','3','/','1','5'], ['8','/','5'], ['5','/','3'], ['2','6','/','1','5'], ['9','/','5'], ['2','8','/','1','5'], ['2','9','/','1','5'], ['2','/','1'], ['3','1','/','1','5'], ['3','2','/','1','5'], ['1','1','/','5'], ['3','4','/','1','5'], ['7','/','3'], ['1','2','/','5'], ['3','7','/','1','5'], ['3','8','/','1','5'], ['1','3','/','5'], ['8','/','3'], ['4','1','/','1','5'], ['1','4','/','5'], ['4','3','/','1','5'], ['4','4','/','1','5'], ['3','/','1'], []]⟩,
  ⟨['H','D','3','_','1','6','_','4','8'], 3, 16, 48, [['!',' ','H','D','3',' ','1','6','-','4','8','.','s','c','l'], ['!'], ['H','D','3',' ','1','6','-','4','8',' ','-',' ','H','a','r','m','o','n','i','c',' ','d','i','v','i','s','i','o','n',' ','o','f',' ','3',':',' ','H','a','r','m','o','n','i','c','s',' ','1','6','-','4','8'], ['3','2'], ['!'], ['1','7','/','1','6'], ['9','/','8'], ['1','9','/','1','6'], ['5','/','4'], ['2','1','/','1','6'], ['1','1','/','8'], ['2','3','/','1','6'], ['3','/','2'], ['2','5','/','1','6'], ['1','3','/','8'], ['2','7','/','1','6'], ['7','/','4'], ['2','9','/','1','6'], ['1','5','/','8'], ['3','1','/','1','6'], ['2','/','1'], ['3','3','/','1','6'], ['1','7','/','8'], ['3','5','/','1','6'], ['9','/','4'], ['3','7','/','1','6'], ['1','9','/','8'], ['3','9','/','1','6'], ['5','/','2'], ['4','1','/','1','6'], ['2','1','/','8'], ['4','3','/','1','6'], ['1','1','/','4'], ['4','5','/','1','6'], ['2','3','/','8'], ['4','7','/','1','6'], ['3','/','1'], [], []]⟩]

/-- surge-tuning/src/hd4.rs 3-509, all its constants. -/
def hd4 : List Entry := [
  ⟨['H','D','4','_','0','4','_','1','6'], 4, 4, 16, [['!',' ','H','D','4',' ','0','4','-','1','6','.','s','c','l'], ['!'], ['H','D','4',' ','0','4','-','1','6',' ','-',' ','H','a','r','m','o','n','i','c',' ','d','i','v','i','s','i','o','n',' ','o','f',' ','4',':',' ','H','a','r','m','o','n','i','c','s',' ','0','4','-','1','6'], ['1','2'], ['!'], ['5','/','4'], ['3','/','2'], ['7','/','4'], ['2','/','1'], ['9','/','4'], ['5','/','2'], ['1','1','/','4'], ['3','/','1'], ['1','3','/','4'], ['7','/','2'], ['1','5','/','4'], ['4','/','1'], []]⟩,
  ⟨['H','D','4','_','0','5','_','2','0'], 4, 5, 20, [['!',' ','H','D','4',' ','0','5','-','2','0','.','s','c','l'], ['!'], ['H','D','4',' ','0','5','-','2','0',' ','-',' ','H','a','r','m','o','n','i','c',' ','d','i','v','i','s','i','o','n',' ','o','f',' ','4',':',' ','H','a','r','m','o','n','i','c','s',' ','0','5','-','2','0'], ['1','5'], ['!'], ['6','/','5'], ['7','/','5'], ['8','/','5'], ['9','/','5'], ['2','/','1'], ['1','1','/','5'], ['1','2','/','5'], ['1','3','/','5'], ['1','4','/','5'], ['3','/','1'], ['1','6','/','5'], ['1','7','/','5'], ['1','8','/','5'], ['1','9','/','5'], ['4','/','1'], []]⟩,
  ⟨['H','D','4','_','0','6','_','2','4'], 4, 6, 24, [['!',' ','H','D','4',' ','0','6','-','2','4','.','s','c','l'], ['!'], ['H','D','4',' ','0','6','-','2','4',' ','-',' ','H','a','r','m','o','n','i','c',' ','d','i','v','i','s','i','o','n',' ','o','f',' ','4',':',' ','H','a','r','m','o','n','i','c','s',' ','0','6','-','2','4'], ['1','8'], ['!'], ['7','/','6'], ['4','/','3'], ['3','/','2'], ['5','/','3'], ['1','1','/','6'], ['2','/','1'], ['1','3','/','6'], ['7','/','3'], ['5','/','2'], ['8','/','3'], ['1','7','/','6'], ['3','/','1'], ['1','9','/','6'], ['1','0','/','3'], ['7','/','2'], ['1','1','/','3'], ['2','3','/','6'], ['4','/','1'], []]⟩,
  ⟨['H','D','4','_','0','7','_','2','8'], 4, 7, 28, [['!',' ','H','D','4',' ','0','7','-','2','8','.','s','c','l'], ['!'], ['H','D','4',' ','0','7','-','2','8',' ','-',' ','H','a','r','m','o','n','i','c',' ','d','i','v','i','s','i','o','n',' ','o','f',' ','4',':',' ','H','a','r','m','o','n','i','c','s',' ','0','7','-','2','8'], ['2','1'], ['!'], ['8','/','7'], ['9','/','7'], ['1','0','/','7'], ['1','1','/','7'], ['1','2','/','7'], ['1','3','/','7'], ['2','/','1'], ['1','5','/','7'], ['1','6','/','7'], ['1','7','/','7'], ['1','8','/','7'], ['1','9','/','7'], ['2','0','/','7'], ['3','/','1'], ['2','2','/','7'], ['2','3','/','7'], ['2','4','/','7'], ['2','5','/','7'], ['2','6','/','7'], ['2','7','/','7'], ['4','/','1'], []]⟩,
  ⟨['H','D','4','_','0','8','_','3','2'], 4, 8, 32, [['!',' ','H','D','4',' ','0','8','-','3','2','.','s','c','l'], ['!'], ['H','D','4',' ','0','8','-','3','2',' ','-',' ','H','a','r','m','o','n','i','c',' ','d','i','v','i','s','i','o','n',' ','o','f',' ','4',':',' ','H','a','r','m','o','n','i','c','s',' ','0','8','-','3','2'], ['2','4'], ['!'], ['9','/','8'], ['5','/','4'], ['1','1','/','8'], ['3','/','2'], ['1','3','/','8'], ['7','/','4'], ['1','5','/','8'], ['2','/','1'], ['1','7','/','8'], ['9','/','4'], ['1','9','/','8'], ['5','/','2'], ['2','1','/','8'], ['1','1','/','4'], ['2','3','/','8'], ['3','/','1'], ['2','5','/','8'], ['1','3','/','4'], ['2','7','/','8'], ['7','/','2'], ['2','9','/','8'], ['1','5','/','4'], ['3','1','/','8'], ['4','/','1'], []]⟩,
  ⟨['H','D','4','_','0','9','_','3','6'], 4, 9, 36, [['!',' ','H','D','4',' ','0','9','-','3','6','.','s','c','l'], ['!'], ['H','D','4',' ','0','9','-','3','6',' ','-',' ','H','a','r','m','o','n','i','c',' ','d','i','v','i','s','i','o','n',' ','o','f',' ','4',':',' ','H','a','r','m','o','n','i','c','s',' ','0','9','-','3','6','v'], ['2','7'], ['!'], ['1','0','/','9'], ['1','1','/','9'], ['4','/','3'], ['1','3','/','9'], ['1','4','/','9'], ['5','/','3'], ['1','6','/','9'], ['1','7','/','9'], ['2','/','1'], ['1','9','/','9'], ['2','0','/','9'], ['7','/','3'], ['2','2','/','9'], ['2','3','/','9'], ['8','/','3'], ['2','5','/','9'], ['2','6','/','9'], ['3','/','1'], ['2','8','/','9'], ['2','9','/','9'], ['1','0','/','3'], ['3','1','/','9'], ['3','2','/','9'], ['1','1','/','3'], ['3','4','/','9'], ['3','5','/','9'], ['4','/','1'], []]⟩,
  ⟨['H','D','4','_','1','0','_','4','0'], 4, 10, 40, [['!',' ','H','D','4',' ','1','0','-','4','0','.','s','c','l'], ['!'], ['H','D','4',' ','1','0','-','4','0',' ','-',' ','H','a','r','m','o','n','i','c',' ','d','i','v','i','s','i','o','n',' ','o','f',' ','4',':',' ','H','a','r','m','o','n','i','c','s',' ','1','0','-','4','0'], ['3','0'], ['!'], ['1','1','/','1','0'], ['6','/','5'], ['1','3','/','1','0'], ['7','/','5'], ['3','/','2'], ['8','/','5'], ['1','7','/','1','0'], ['9','/','5'], ['1','9','/','1','0'], ['2','/','1'], ['2','1','/','1','0'], ['1','1','/','5'], ['2','3','/','1','0'], ['1','2','/','5'], ['5','/','2'], ['1','3','/','5'], ['2','7','/','1','0'], ['1','4','/','5'], ['2','9','/','1','0'], ['3','/','1'], ['3','1','/','1','0'], ['1','6','/','5'], ['3','3','/','1','0'], ['1','7','/','5'], ['7','/','2'], ['1','8','/','5'], ['3','7','/','1','0'], ['1','9','/','5'], ['3','9','/','1','0'], ['4','/','1'], []]⟩,
  ⟨['H','D','4','_','1','1','_','4','4'], 4, 11, 44, [['!',' ','H','D','4',' ','1','1','-','4','4','.','s','c','l'], ['!'], ['H','D','4',' ','1','1','-','4','4',' ','-',' ','H','a','r','m','o','n','i','c',' ','d','i','v','i','s','i','o','n',' ','o','f',' ','4',':',' ','H','a','r','m','o','n','i','c','s',' ','1','1','-','4','4'], ['3','3'], ['!'], ['1','2','/','1','1'], ['1','3','/','1','1'], ['1','4','/','1','1'], ['1','5','/','1','1'], ['1','6','/','1','1'], ['1','7','/','1','1'], ['1','8','/','1','1'], ['1','9','/','1','1'], ['2','0','/','1','1'], ['2','1','/','1','1'], ['2','/','1'], ['2','3','/','1','1'], ['2','4','/','1','1'], ['2','5','/','1','1'], ['2','6','/','1','1'], ['2','7','/','1','1'], ['2','8','/','1','1'], ['2','9','/','1','1'], ['3','0','/','1','1'], ['3','1','/','1','1'], ['3','2','/','1','1'], ['3','/','1'], ['3','4','/','1','1'], ['3','5','/','1','1'], ['3','6','/','1','1'], ['3','7','/','1','1'], ['3','8','/','1','1'], ['3','9','/','1','1'], ['4','0','/','1','1'], ['4','1','/','1','1'], ['4','2','/','1','1'], ['4','3','/','1','1'], ['4','/','1'], []]⟩,
  ⟨['H','D','4','_','1','2','_','4','8'], 4, 12, 48, [['!',' ','H','D','4',' ','1','2','-','4','8','.','s','c','l'], ['!'], ['H','D','4',' ','1','2','-','4','8',' ','-',' ','H','a','r','m','o','n','i','c',' ','d','i','v','i','s','i','o','n',' ','o','f',' ','4',':',' ','H','a','r','m','o','n','i','c','s',' ','1','2','-','4','8'], ['3','6'], ['!'], ['1','3','/','1','2'], ['7','/','6'], ['5','/','4'], ['4','/','3'], ['1','7','/','1','2'], ['3','/','2'], ['1','9','/','1','2'], ['5','/','3'], ['7','/','4'], ['1','1','/','6'], ['2','3','/','1','2'], ['2','/','1'], ['2','5','/','1','2'], ['1','3','/','6'], ['9','/','4'], ['7','/','3'], ['2','9','/','1','2'], ['5','/','2'], ['3','1','/','1','2'], ['8','/','3'], ['1','1','/','4'], ['1','7','/','6'], ['3','5','/','1','2'], ['3','/','1'], ['3','7','/','1','2'], ['1','9','/','6'], ['1','3','/','4'], ['1','0','/','3'], ['4','1','/','1','2'], ['7','/','2'], ['4','3','/','1','2'], ['1','1','/','3'], ['1','5','/','4'], ['2','3','/','6'], ['4','7','/','1','2'], ['4','/','1'], []]⟩,
  ⟨['H','D','4','_','1','3','_','5','2'], 4, 13, 52, [['!',' ','H','D','4',' ','1','3','-','5','2','.','s','c','l'], ['!'], ['H','D','4',' ','1','3','-','5','2',' ','-',' ','H','a','r','m','o','n','i','c',' ','d','i','v','i','s','i','o','n',' ','o','f',' ','4',':',' ','H','a','r','m','o','n','i','c','s',' ','1','3','-','5','2'], ['3','9'], ['!'], ['1','4','/','1','3'], ['1','5','/','1','3'], ['1','6','/','1','3'], ['1','7','/','1','3'], ['1','8','/','1','3'], ['1','9','/','1','3'], ['2','0','/','1','3'], ['2','1','/','1','3'], ['2','2','/','1','3'], ['2','3','/','1','3'], ['2','4','/','1','3'], ['2','5','/','1','3'], ['2','/','1'], ['2','7','/','1','3'], ['2','8','/','1','3'], ['2','9','/','1','3'], ['3','0','/','1','3'], ['3','1','/','1','3'], ['3','2','/','1','3'], ['3','3','/','1','3'], ['3','4','/','1','3'], ['3','5','/','1','3'], ['3','6','/','1','3'], ['3','7','/','1','3'], ['3','8','/','1','3'], ['3','/','1'], ['4','0','/','1','3'], ['4','1','/','1','3'], ['4','2','/','1','3'], ['4','3','/','1','3'], ['4','4','/','1','3'], ['4','5','/','1','3'], ['4','6','/','1','3'], ['4','7','/','1','3'], ['4','8','/','1','3'], ['4','9','/','1','3'], ['5','0','/','1','3'], ['5','1','/','1','3'], ['4','/','1'], []]⟩,
  ⟨['H','D','4','_','1','4','_','5','6'], 4, 14, 56, [['!',' ','H','D','4',' ','1','4','-','5','6','.','s','c','l'], ['!'], ['H','D','4',' ','1','4','-','5','6',' ','-',' ','H','a','r','m','o','n','i','c',' ','d','i','v','i','s','i','o','n',' ','o','f',' ','4',':',' ','H','a','r','m','o','n','i','c','s',' ','1','4','-','5','6'], ['4','2'], ['!'], ['1','5','/','1','4'], ['8','/','7'], ['1','7','/','1','4'], ['9','/','7'], ['1','9','/','1','4'], ['1','0','/','7'], ['3','/','2'], ['1','1','/','7'], ['2','3','/','1','4'], ['1','2','/','7'], ['2','5','/','1','4'], ['1','3','/','7'], ['2','7','/','1','4'], ['2','/','1'], ['2','9','/','1','4'], ['1','5','/','7'], ['3','1','/','1','4'], ['1','6','/','7'], ['3','3','/','1','4'], ['1','7','/','7'], ['5','/','2'], ['1','8','/','7'], ['3','7','/','1','4'], ['1','9','/','7'], ['3','9','/','1','4'], ['2','0','/','7'], ['4','1','/','1','4'], ['3','/','1'], ['4','3','/','1','4'], ['2','2','/','7'], ['4','5','/','1','4'], ['2','3','/','7'], ['4','7','/','1','4'], ['2','4','/','7'], ['7','/','2'], ['2','5','/','7'], ['5','1','/','1','4'], ['2','6','/','7'], ['5','3','/','1','4'], ['2','7','/','7'], ['5','5','/','1','4'], ['4','/','1'], []]⟩,
  ⟨['H','D','4','_','1','5','_','6','0'], 4, 15, 60, [['!',' ','H','D','4',' ','1','5','-','6','0','.','s','c','l'], ['!'], ['H','D','4',' ','1','5','-','6','0',' ','-',' ','H','a','r','m','o','n','i','c',' ','d','i','v','i','s','i','o','n',' ','o','f',' ','4',':',' ','H','a','r','m','o','n','i','c','s',' ','1','5','-','6','0'], ['4','5'], ['!'], ['1','6','/','1','5'], ['1','7','/','1','5'], ['6','/','5'], ['1','9','/','1','5'], ['4','/','3'], ['7','/','5'], ['2','2','/','1','5'], ['2','3','/','1','5'], ['8','/','5'], ['5','/','3'], ['2','6','/','1','5'], ['9','/','5'], ['2','8','/','1','5'], ['2','9','/','1','5'], ['2','/','1'], ['3','1','/','1','5'], ['3','2','/','1','5'], ['1','1','/','5'], ['3','4','/','1','5'], ['7','/','3'], ['1','2','/','5'], ['3','7','/','1','5'], ['3','8','/','1','5'], ['1','3','/','5'], ['8','/','3'], ['4','1','/','1','5'], ['1','4','/','5'], ['4','3','/','1','5'], ['4','4','/','1','5'], ['3','/','1'], ['4','6','/','1','5'], ['4','7','/','1','5'], ['1','6','/','5'], ['4','9','/','1','5'], ['1','0','/','3'], ['1','7','/','5'], ['5','2','/','1','5'], ['5','3','/','1','5'], ['1','8','/','5'], ['1','1','/','3'], ['5','6','/','1','5'], ['1','9','/','5'], ['5','8','/','1','5'], ['5','9','/','1','5'], ['4','/','1'], []]⟩,
  ⟨['H','D','4','_','1','6','_','6','4'], 4, 16, 64, [['!',' ','H','D','4',' ','1','6','-','6','4','.','s','c','l'], ['!'], ['H','D','4',' ','1','6','-','6','4',' ','-',' ','H','a','r','m','o','n','i','c',' ','d','i','v','i','s','i','o','n',' ','o','f',' ','4',':',' ','H','a','r','m','o','n','i','c','s',' ','1','6','-','6','4'], ['4','8'], ['!'], ['1','7','/','1','6'], ['9','/','8'], ['1','9','/','1','6'], ['5','/','4'], ['2','1','/','1','6'], ['1','1','/','8'], ['2','3','/','1','6'], ['3','/','2'], ['2','5','/','1','6'], ['1','3','/','8'], ['2','7','/','1','6'], ['7','/','4'], ['2','9','/','1','6'], ['1','5','/','8'], ['3','1','/','1','6'], ['2','/','1'], ['3','3','/','1','6'], ['1','7','/','8'], ['3','5','/','1','6'], ['9','/','4'], ['3','7','/','1','6'], ['1','9','/','8'], ['3','9','/','1','6'], ['5','/','2'], ['4','1','/','1','6'], ['2','1','/','8'], ['4','3','/','1','6'], ['1','1','/','4'], ['4','5','/','1','6'], ['2','3','/','8'], ['4','7','/','1','6'], ['3','/','1'], ['4','9','/','1','6'], ['2','5','/','8'], ['5','1','/','1','6'], ['1','3','/','4'], ['5','3','/','1','6'], ['2','7','/','8'], ['5','5','/','1','6'], ['7','/','2'], ['5','7','/','1','6'], ['2','9','/','8'], ['5','9','/','1','6'], ['1','5','/','4'], ['6','1','/','1','6'], ['3','1','/','8'], ['6','3','/','1','6'], ['4','/','1']]⟩]

/-- surge-tuning/src/sd2.rs 3-236, all its constants. -/
def sd2 : List Entry := [
  ⟨['S','D','2','_','0','8','_','0','4'], 2, 8, 4, [['!',' ','S','D','2',' ','0','8','-','0','4','.','s','c','l'], ['!'], ['S','D','2',' ','0','8','-','0','4',' ','-',' ','S','u','b','h','a','r','m','o','n','i','c',' ','d','i','v','i','s','i','o','n',' ','o','f',' ','2',':',' ','S','u','b','h','a','r','m','o','n','i','c','s',' ','0','8','-','0','4'], ['4'], ['!'], ['8','/','7'], ['4','/','3'], ['8','/','5'], ['2','/','1'], []]⟩,
  ⟨['S','D','2','_','1','0','_','0','5'], 2, 10, 5, [['!',' ','S','D','2',' ','1','0','-','0','5','.','s','c','l'], ['!'], ['S','D','2',' ','1','0','-','0','5',' ','-',' ','S','u','b','h','a','r','m','o','n','i','c',' ','d','i','v','i','s','i','o','n',' ','o','f',' ','2',':',' ','S','u','b','h','a','r','m','o','n','i','c','s',' ','1','0','-','0','5'], ['5'], ['!'], ['1','0','/','9'], ['5','/','4'], ['1','0','/','7'], ['5','/','3'], ['2','/','1'], []]⟩,
  ⟨['S','D','2','_','1','2','_','0','6'], 2, 12, 6, [['!',' ','S','D','2',' ','1','2','-','0','6','.','s','c','l'], ['!'], ['S','D','2',' ','1','2','-','0','6',' ','-',' ','S','u','b','h','a','r','m','o','n','i','c',' ','d','i','v','i','s','i','o','n',' ','o','f',' ','2',':',' ','S','u','b','h','a','r','m','o','n','i','c','s',' ','1','2','-','0','6'], ['6'], ['!'], ['1','2','/','1','1'], ['6','/','5'], ['4','/','3'], ['3','/','2'], ['1','2','/','7'], ['2','/','1'], []]⟩,
  ⟨['S','D','2','_','1','4','_','0','7'], 2, 14, 7, [['!',' ','S','D','2',' ','1','4','-','0','7','.','s','c','l'], ['!'], ['S','D','2',' ','1','4','-','0','7',' ','-',' ','S','u','b','h','a','r','m','o','n','i','c',' ','d','i','v','i','s','i','o','n',' ','o','f',' ','2',':',' ','S','u','b','h','a','r','m','o','n','i','c','s',' ','1','4','-','0','7'], ['7'], ['!'], ['1','4','/','1','3'], ['7','/','6'], ['1','4','/','1','1'], ['7','/','5'], ['1','4','/','9'], ['7','/','4'], ['2','/','1'], []]⟩,
  ⟨['S','D','2','_','1','6','_','0','8'], 2, 16, 8, [['!',' ','S','D','2',' ','1','6','-','0','8','.','s','c','l'], ['!'], ['S','D','2',' ','1','6','-','0','8',' ','-',' ','S','u','b','h','a','r','m','o','n','i','c',' ','d','i','v','i','s','i','o','n',' ','o','f',' ','2',':',' ','S','u','b','h','a','r','m','o','n','i','c','s',' ','1','6','-','0','8'], ['8'], ['!'], ['1','6','/','1','5'], ['8','/','7'], ['1','6','/','1','3'], ['4','/','3'], ['1','6','/','1','1'], ['8','/','5'], ['1','6','/','9'], ['2','/','1'], []]⟩,
  ⟨['S','D','2','_','1','8','_','0','9'], 2, 18, 9, [['!',' ','S','D','2',' ','1','8','-','0','9','.','s','c','l'], ['!'], ['S','D','2',' ','1','8','-','0','9',' ','-',' ','S','u','b','h','a','r','m','o','n','i','c',' ','d','i','v','i','s','i','o','n',' ','o','f',' ','2',':',' ','S','u','b','h','a','r','m','o','n','i','c','s',' ','1','8','-','0','9'], ['9'], ['!'], ['1','8','/','1','7'], ['9','/','8'], ['6','/','5'], ['9','/','7'], ['1','8','/','1','3'], ['3','/','2'], ['1','8','/','1','1'], ['9','/','5'], ['2','/','1'], []]⟩,
  ⟨['S','D','2','_','2','0','_','1','0'], 2, 20, 10, [['!',' ','S','D','2',' ','2','0','-','1','0','.','s','c','l'], ['!'], ['S','D','2',' ','2','0','-','1','0',' ','-',' ','S','u','b','h','a','r','m','o','n','i','c',' ','d','i','v','i','s','i','o','n',' ','o','f',' ','2',':',' ','S','u','b','h','a','r','m','o','n','i','c','s',' ','2','0','-','1','0'], ['1','0'], ['!'], ['2','0','/','1','9'], ['1','0','/','9'], ['2','0','/','1','7'], ['5','/','4'], ['4','/','3'], ['1','0','/','7'], ['2','0','/','1','3'], ['5','/','3'], ['2','0','/','1','1'], ['2','/','1'], []]⟩,
  ⟨['S','D','2','_','2','2','_','1','1'], 2, 22, 11, [['!',' ','S','D','2',' ','2','2','-','1','1','.','s','c','l'], ['!'], ['S','D','2',' ','2','2','-','1','1',' ','-',' ','S','u','b','h','a','r','m','o','n','i','c',' ','d','i','v','i','s','i','o','n',' ','o','f',' ','2',':',' ','S','u','b','h','a','r','m','o','n','i','c','s',' ','2','2','-','1','1'], ['1','1'], ['!'], ['2','2','/','2','1'], ['1','1','/','1','0'], ['2','2','/','1','9'], ['1','1','/','9'], ['2','2','/','1','7'], ['1','1','/','8'], ['2','2','/','1','5'], ['1','1','/','7'], ['2','2','/','1','3'], ['1','1','/','6'], ['2','/','1'], []]⟩,
  ⟨['S','D','2','_','2','4','_','1','2'], 2, 24, 12, [['!',' ','S','D','2',' ','2','4','-','1','2','.','s','c','l'], ['!'], ['S','D','2',' ','2','4','-','1','2',' ','-',' ','S','u','b','h','a','r','m','o','n','i','c',' ','d','i','v','i','s','i','o','n',' ','o','f',' ','2',':',' ','S','u','b','h','a','r','m','o','n','i','c','s',' ','2','4','-','1','2'], ['1','2'], ['!'], ['2','4','/','2','3'], ['1','2','/','1','1'], ['8','/','7'], ['6','/','5'], ['2','4','/','1','9'], ['4','/','3'], ['2','4','/','1','7'], ['3','/','2'], ['8','/','5'], ['1','2','/','7'], ['2','4','/','1','3'], ['2','/','1'], []]⟩,
  ⟨['S','D','2','_','2','6','_','1','3'], 2, 26, 13, [['!',' ','S','D','2',' ','2','6','-','1','3','.','s','c','l'], ['!'], ['S','D','2',' ','2','6','-','1','3',' ','-',' ','S','u','b','h','a','r','m','o','n','i','c',' ','d','i','v','i','s','i','o','n',' ','o','f',' ','2',':',' ','S','u','b','h','a','r','m','o','n','i','c','s',' ','2','6','-','1','3'], ['1','3'], ['!'], ['2','6','/','2','5'], ['1','3','/','1','2'], ['2','6','/','2','3'], ['1','3','/','1','1'], ['2','6','/','2','1'], ['1','3','/','1','0'], ['2','6','/','1','9'], ['1','3','/','9'], ['2','6','/','1','7'], ['1','3','/','8'], ['2','6','/','1','5'], ['1','3','/','7'], ['2','/','1'], []]⟩,
  ⟨['S','D','2','_','2','8','_','1','4'], 2, 28, 14, [['!',' ','S','D','2',' ','2','8','-','1','4','.','s','c','l'], ['!'], ['S','D','2',' ','2','8','-','1','4',' ','-',' ','S','u','b','h','a','r','m','o','n','i','c',' ','d','i','v','i','s','i','o','n',' ','o','f',' ','2',':',' ','S','u','b','h','a','r','m','o','n','i','c','s',' ','2','8','-','1','4'], ['1','4'], ['!'], ['2','8','/','2','7'], ['1','4','/','1','3'], ['2','8','/','2','5'], ['7','/','6'], ['2','8','/','2','3'], ['1','4','/','1','1'], ['4','/','3'], ['7','/','5'], ['2','8','/','1','9'], ['1','4','/','9'], ['2','8','/','1','7'], ['7','/','4'], ['2','8','/','1','5'], ['2','/','1'], []]⟩,
  ⟨['S','D','2','_','3','0','_','1','5'], 2, 30, 15, [['!',' ','S','D','2',' ','3','0','-','1','5','.','s','c','l'], ['!'], ['S','D','2',' ','3','0','-','1','5',' ','-',' ','S','u','b','h','a','r','m','o','n','i','c',' ','d','i','v','i','s','i','o','n',' ','o','f',' ','2',':',' ','S','u','b','h','a','r','m','o','n','i','c','s',' ','3','0','-','1','5'], ['1','5'], ['!'], ['3','0','/','2','9'], ['1','5','/','1','4'], ['1','0','/','9'], ['1','5','/','1','3'], ['6','/','5'], ['5','/','4'], ['3','0','/','2','3'], ['1','5','/','1','1'], ['1','0','/','7'], ['3','/','2'], ['3','0','/','1','9'], ['5','/','3'], ['3','0','/','1','7'], ['1','5','/','8'], ['2','/','1'], []]⟩,
  ⟨['S','D','2','_','3','2','_','1','6'], 2, 32, 16, [['!',' ','S','D','2',' ','3','2','-','1','6','.','s','c','l'], ['!'], ['S','D','2',' ','3','2','-','1','6',' ','-',' ','S','u','b','h','a','r','m','o','n','i','c',' ','d','i','v','i','s','i','o','n',' ','o','f',' ','2',':',' ','S','u','b','h','a','r','m','o','n','i','c','s',' ','3','2','-','1','6'], ['1','6'], ['!'], ['3','2','/','3','1'], ['1','6','/','1','5'], ['3','2','/','2','9'], ['8','/','7'], ['3','2','/','2','7'], ['1','6','/','1','3'], ['3','2','/','2','5'], ['4','/','3'], ['3','2','/','2','3'], ['1','6','/','1','1'], ['3','2','/','2','1'], ['8','/','5'], ['3','2','/','1','9'], ['1','6','/','9'], ['3','2','/','1','7'], ['2','/','1'], []]⟩]

/-- surge-tuning/src/sd3.rs 3-367, all its constants. -/
def sd3 : List Entry := [
  ⟨['S','D','3','_','1','2','_','0','4'], 3, 12, 4, [['!',' ','S','D','3',' ','1','2','-','0','4','.','s','c','l'], ['!'], ['S','D','3',' ','1','2','-','0','4',' ','-',' ','S','u','b','h','a','r','m','o','n','i','c',' ','d','i','v','i','s','i','o','n',' ','o','f',' ','3',':',' ','S','u','b','h','a','r','m','o','n','i','c','s',' ','1','2','-','0','4'], ['8'], ['!'], ['1','2','/','1','1'], ['6','/','5'], ['4','/','3'], ['3','/','2'], ['1','2','/','7'], ['2','/','1'], ['1','2','/','5'], ['3','/','1'], []]⟩,
  ⟨['S','D','3','_','1','5','_','0','5'], 3, 15, 5, [['!',' ','S','D','3',' ','1','5','-','0','5','.','s','c','l'], ['!'], ['S','D','3',' ','1','5','-','0','5',' ','-',' ','S','u','b','h','a','r','m','o','n','i','c',' ','d','i','v','i','s','i','o','n',' ','o','f',' ','3',':',' ','S','u','b','h','a','r','m','o','n','i','c','s',' ','1','5','-','0','5'], ['1','0'], ['!'], ['1','5','/','1','4'], ['1','5','/','1','3'], ['5','/','4'], ['1','5','/','1','1'], ['3','/','2'], ['5','/','3'], ['1','5','/','8'], ['1','5','/','7'], ['5','/','2'], ['3','/','1'], []]⟩,
  ⟨['S','D','3','_','1','8','_','0','6'], 3, 18, 6, [['!',' ','S','D','3',' ','1','8','-','0','6','.','s','c','l'], ['!'], ['S','D','3',' ','1','8','-','0','6',' ','-',' ','S','u','b','h','a','r','m','o','n','i','c',' ','d','i','v','i','s','i','o','n',' ','o','f',' ','3',':',' ','S','u','b','h','a','r','m','o','n','i','c','s',' ','1','8','-','0','6'], ['1','2'], ['!'], ['1','8','/','1','7'], ['9','/','8'], ['6','/','5'], ['9','/','7'], ['1','8','/','1','3'], ['3','/','2'], ['1','8','/','1','1'], ['9','/','5'], ['2','/','1'], ['9','/','4'], ['1','8','/','7'], ['3','/','1'], []]⟩,
  ⟨['S','D','3','_','2','1','_','0','7'], 3, 21, 7, [['!',' ','S','D','3',' ','2','1','-','0','7','.','s','c','l'], ['!'], ['S','D','3',' ','2','1','-','0','7',' ','-',' ','S','u','b','h','a','r','m','o','n','i','c',' ','d','i','v','i','s','i','o','n',' ','o','f',' ','3',':',' ','S','u','b','h','a','r','m','o','n','i','c','s',' ','2','1','-','0','7'], ['1','4'], ['!'], ['2','1','/','2','0'], ['2','1','/','1','9'], ['7','/','6'], ['2','1','/','1','7'], ['2','1','/','1','6'], ['7','/','5'], ['3','/','2'], ['2','1','/','1','3'], ['7','/','4'], ['2','1','/','1','1'], ['2','1','/','1','0'], ['7','/','3'], ['2','1','/','8'], ['3','/','1'], []]⟩,
  ⟨['S','D','3','_','2','4','_','0','8'], 3, 24, 8, [['!',' ','S','D','3',' ','2','4','-','0','8','.','s','c','l'], ['!'], ['S','D','3',' ','2','4','-','0','8',' ','-',' ','S','u','b','h','a','r','m','o','n','i','c',' ','d','i','v','i','s','i','o','n',' ','o','f',' ','3',':',' ','S','u','b','h','a','r','m','o','n','i','c','s',' ','2','4','-','0','8'], ['1','6'], ['!'], ['2','4','/','2','3'], ['1','2','/','1','1'], ['8','/','7'], ['6','/','5'], ['2','4','/','1','9'], ['4','/','3'], ['2','4','/','1','7'], ['3','/','2'], ['8','/','5'], ['1','2','/','7'], ['2','4','/','1','3'], ['2','/','1'], ['2','4','/','1','1'], ['1','2','/','5'], ['8','/','3'], ['3','/','1'], []]⟩,
  ⟨['S','D','3','_','2','7','_','0','9'], 3, 27, 9, [['!',' ','S','D','3',' ','2','7','-','0','9','.','s','c','l'], ['!'], ['S','D','3',' ','2','7','-','0','9',' ','-',' ','S','u','b','h','a','r','m','o','n','i','c',' ','d','i','v','i','s','i','o','n',' ','o','f',' ','3',':',' ','S','u','b','h','a','r','m','o','n','i','c','s',' ','2','7','-','0','9'], ['1','8'], ['!'], ['2','7','/','2','6'], ['2','7','/','2','5'], ['9','/','8'], ['2','7','/','2','3'], ['2','7','/','2','2'], ['9','/','7'], ['2','7','/','2','0'], ['2','7','/','1','9'], ['3','/','2'], ['2','7','/','1','7'], ['2','7','/','1','6'], ['9','/','5'], ['2','7','/','1','4'], ['2','7','/','1','3'], ['9','/','4'], ['2','7','/','1','1'], ['2','7','/','1','0'], ['3','/','1'], []]⟩,
  ⟨['S','D','3','_','3','0','_','1','0'], 3, 30, 10, [['!',' ','S','D','3',' ','3','0','-','1','0','.','s','c','l'], ['!'], ['S','D','3',' ','3','0','-','1','0',' ','-',' ','S','u','b','h','a','r','m','o','n','i','c',' ','d','i','v','i','s','i','o','n',' ','o','f',' ','3',':',' ','S','u','b','h','a','r','m','o','n','i','c','s',' ','3','0','-','1','0'], ['2','0'], ['!'], ['3','0','/','2','9'], ['1','5','/','1','4'], ['1','0','/','9'], ['1','5','/','1','3'], ['6','/','5'], ['5','/','4'], ['3','0','/','2','3'], ['1','5','/','1','1'], ['1','0','/','7'], ['3','/','2'], ['3','0','/','1','9'], ['5','/','3'], ['3','0','/','1','7'], ['1','5','/','8'], ['2','/','1'], ['1','5','/','7'], ['3','0','/','1','3'], ['5','/','2'], ['3','0','/','1','1'], ['3','/','1'], []]⟩,
  ⟨['S','D','3','_','3','3','_','1','1'], 3, 33, 11, [['!',' ','S','D','3',' ','3','3','-','1','1','.','s','c','l'], ['!'], ['S','D','3',' ','3','3','-','1','1',' ','-',' ','S','u','b','h','a','r','m','o','n','i','c',' ','d','i','v','i','s','i','o','n',' ','o','f',' ','3',':',' ','S','u','b','h','a','r','m','o','n','i','c','s',' ','3','3','-','1','1'], ['2','2'], ['!'], ['3','3','/','3','2'], ['3','3','/','3','1'], ['1','1','/','1','0'], ['3','3','/','2','9'], ['3','3','/','2','8'], ['1','1','/','9'], ['3','3','/','2','6'], ['3','3','/','2','5'], ['1','1','/','8'], ['3','3','/','2','3'], ['3','/','2'], ['1','1','/','7'], ['3','3','/','2','0'], ['3','3','/','1','9'], ['1','1','/','6'], ['3','3','/','1','7'], ['3','3','/','1','6'], ['1','1','/','5'], ['3','3','/','1','4'], ['3','3','/','1','3'], ['1','1','/','4'], ['3','/','1'], []]⟩,
  ⟨['S','D','3','_','3','6','_','1','2'], 3, 36, 12, [['!',' ','S','D','3',' ','3','6','-','1','2','.','s','c','l'], ['!'], ['S','D','3',' ','3','6','-','1','2',' ','-',' ','S','u','b','h','a','r','m','o','n','i','c',' ','d','i','v','i','s','i','o','n',' ','o','f',' ','3',':',' ','S','u','b','h','a','r','m','o','n','i','c','s',' ','3','6','-','1','2'], ['2','4'], ['!'], ['3','6','/','3','5'], ['1','8','/','1','7'], ['1','2','/','1','1'], ['9','/','8'], ['3','6','/','3','1'], ['6','/','5'], ['3','6','/','2','9'], ['9','/','7'], ['4','/','3'], ['1','8','/','1','3'], ['3','6','/','2','5'], ['3','/','2'], ['3','6','/','2','3'], ['1','8','/','1','1'], ['1','2','/','7'], ['9','/','5'], ['3','6','/','1','9'], ['2','/','1'], ['3','6','/','1','7'], ['9','/','4'], ['1','2','/','5'], ['1','8','/','7'], ['3','6','/','1','3'], ['3','/','1'], []]⟩,
  ⟨['S','D','3','_','3','9','_','1','3'], 3, 39, 13, [['!',' ','S','D','3',' ','3','9','-','1','3','.','s','c','l'], ['!'], ['S','D','3',' ','3','9','-','1','3',' ','-',' ','S','u','b','h','a','r','m','o','n','i','c',' ','d','i','v','i','s','i','o','n',' ','o','f',' ','3',':',' ','S','u','b','h','a','r','m','o','n','i','c','s',' ','3','9','-','1','3'], ['2','6'], ['!'], ['3','9','/','3','8'], ['3','9','/','3','7'], ['1','3','/','1','2'], ['3','9','/','3','5'], ['3','9','/','3','4'], ['1','3','/','1','1'], ['3','9','/','3','2'], ['3','9','/','3','1'], ['1','3','/','1','0'], ['3','9','/','2','9'], ['3','9','/','2','8'], ['1','3','/','9'], ['3','/','2'], ['3','9','/','2','5'], ['1','3','/','8'], ['3','9','/','2','3'], ['3','9','/','2','2'], ['1','3','/','7'], ['3','9','/','2','0'], ['3','9','/','1','9'], ['1','3','/','6'], ['3','9','/','1','7'], ['3','9','/','1','6'], ['1','3','/','5'], ['3','9','/','1','4'], ['3','/','1'], []]⟩,
  ⟨['S','D','3','_','4','2','_','1','4'], 3, 42, 14, [['!',' ','S','D','3',' ','4','2','-','1','4','.','s','c','l'], ['!'], ['S','D','3',' ','4','2','-','1','4',' ','-',' ','S','u','b','h','a','r','m','o','n','i','c',' ','d','i','v','i','s','i','o','n',' ','o','f',' ','3',':',' ','S','u','b','h','a','r','m','o','n','i','c','s',' ','4','2','-','1','4'], ['2','8'], ['!'], ['4','2','/','4','1'], ['2','1','/','2','0'], ['1','4','/','1','3'], ['2','1','/','1','9'], ['4','2','/','3','7'], ['7','/','6'], ['6','/','5'], ['2','1','/','1','7'], ['1','4','/','1','1'], ['2','1','/','1','6'], ['4','2','/','3','1'], ['7','/','5'], ['4','2','/','2','9'], ['3','/','2'], ['1','4','/','9'], ['2','1','/','1','3'], ['4','2','/','2','5'], ['7','/','4'], ['4','2','/','2','3'], ['2','1','/','1','1'], ['2','/','1'], ['2','1','/','1','0'], ['4','2','/','1','9'], ['7','/','3'], ['4','2','/','1','7'], ['2','1','/','8'], ['1','4','/','5'], ['3','/','1'], []]⟩,
  ⟨['S','D','3','_','4','5','_','1','5'], 3, 45, 15, [['!',' ','S','D','3',' ','4','5','-','1','5','.','s','c','l'], ['!'], ['S','D','3',' ','4','5','-','1','5',' ','-',' ','S','u','b','h','a','r','m','o','n','i','c',' ','d','i','v','i','s','i','o','n',' ','o','f',' ','3',':',' ','S','u','b','h','a','r','m','o','n','i','c','s',' ','4','5','-','1','5'], ['3','0'], ['!'], ['4','5','/','4','4'], ['4','5','/','4','3'], ['1','5','/','1','4'], ['4','5','/','4','1'], ['9','/','8'], ['1','5','/','1','3'], ['4','5','/','3','8'], ['4','5','/','3','7'], ['5','/','4'], ['9','/','7'], ['4','5','/','3','4'], ['1','5','/','1','1'], ['4','5','/','3','2'], ['4','5','/','3','1'], ['3','/','2'], ['4','5','/','2','9'], ['4','5','/','2','8'], ['5','/','3'], ['4','5','/','2','6'], ['9','/','5'], ['1','5','/','8'], ['4','5','/','2','3'], ['4','5','/','2','2'], ['1','5','/','7'], ['9','/','4'], ['4','5','/','1','9'], ['5','/','2'], ['4','5','/','1','7'], ['4','5','/','1','6'], ['3','/','1'], []]⟩,
  ⟨['S','D','3','_','4','8','_','1','6'], 3, 48, 16, [['!',' ','S','D','3',' ','4','8','-','1','6','.','s','c','l'], ['!'], ['S','D','3',' ','4','8','-','1','6',' ','-',' ','S','u','b','h','a','r','m','o','n','i','c',' ','d','i','v','i','s','i','o','n',' ','o','f',' ','3',':',' ','S','u','b','h','a','r','m','o','n','i','c','s',' ','4','8','-','1','6'], ['3','2'], ['!'], ['4','8','/','4','7'], ['2','4','/','2','3'], ['1','6','/','1','5'], ['1','2','/','1','1'], ['4','8','/','4','3'], ['8','/','7'], ['4','8','/','4','1'], ['6','/','5'], ['1','6','/','1','3'], ['2','4','/','1','9'], ['4','8','/','3','7'], ['4','/','3'], ['4','8','/','3','5'], ['2','4','/','1','7'], ['1','6','/','1','1'], ['3','/','2'], ['4','8','/','3','1'], ['8','/','5'], ['4','8','/','2','9'], ['1','2','/','7'], ['1','6','/','9'], ['2','4','/','1','3'], ['4','8','/','2','5'], ['2','/','1'], ['4','8','/','2','3'], ['2','4','/','1','1'], ['1','6','/','7'], ['1','2','/','5'], ['4','8','/','1','9'], ['8','/','3'], ['4','8','/','1','7'], ['3','/','1'], [], []]⟩]

/-- surge-tuning/src/sd4.rs 3-495, all its constants. -/
def sd4 : List Entry := [
  ⟨['S','D','4','_','1','6','_','0','4'], 4, 16, 4, [['!',' ','S','D','4',' ','1','6','-','0','4','.','s','c','l'], ['!'], ['S','D','4',' ','1','6','-','0','4',' ','-',' ','S','u','b','h','a','r','m','o','n','i','c',' ','d','i','v','i','s','i','o','n',' ','o','f',' ','4',':',' ','S','u','b','h','a','r','m','o','n','i','c','s',' ','1','6','-','0','4'], ['1','2'], ['!'], ['1','6','/','1','5'], ['8','/','7'], ['1','6','/','1','3'], ['4','/','3'], ['1','6','/','1','1'], ['8','/','5'], ['1','6','/','9'], ['2','/','1'], ['1','6','/','7'], ['8','/','3'], ['1','6','/','5'], ['4','/','1'], []]⟩,
  ⟨['S','D','4','_','2','0','_','0','5'], 4, 20, 5, [['!',' ','S','D','4',' ','2','0','-','0','5','.','s','c','l'], ['!'], ['S','D','4',' ','2','0','-','0','5',' ','-',' ','S','u','b','h','a','r','m','o','n','i','c',' ','d','i','v','i','s','i','o','n',' ','o','f',' ','4',':',' ','S','u','b','h','a','r','m','o','n','i','c','s',' ','2','0','-','0','5'], ['1','5'], ['!'], ['2','0','/','1','9'], ['1','0','/','9'], ['2','0','/','1','7'], ['5','/','4'], ['4','/','3'], ['1','0','/','7'], ['2','0','/','1','3'], ['5','/','3'], ['2','0','/','1','1'], ['2','/','1'], ['2','0','/','9'], ['5','/','2'], ['2','0','/','7'], ['1','0','/','3'], ['4','/','1'], []]⟩,
  ⟨['S','D','4','_','2','4','_','0','6'], 4, 24, 6, [['!',' ','S','D','4',' ','2','4','-','0','6','.','s','c','l'], ['!'], ['S','D','4',' ','2','4','-','0','6',' ','-',' ','S','u','b','h','a','r','m','o','n','i','c',' ','d','i','v','i','s','i','o','n',' ','o','f',' ','4',':',' ','S','u','b','h','a','r','m','o','n','i','c','s',' ','2','4','-','0','6'], ['1','8'], ['!'], ['2','4','/','2','3'], ['1','2','/','1','1'], ['8','/','7'], ['6','/','5'], ['2','4','/','1','9'], ['4','/','3'], ['2','4','/','1','7'], ['3','/','2'], ['8','/','5'], ['1','2','/','7'], ['2','4','/','1','3'], ['2','/','1'], ['2','4','/','1','1'], ['1','2','/','5'], ['8','/','3'], ['3','/','1'], ['2','4','/','7'], ['4','/','1'], []]⟩,
  ⟨['S','D','4','_','2','8','_','0','7'], 4, 28, 7, [['!',' ','S','D','4',' ','2','8','-','0','7','.','s','c','l'], ['!'], ['S','D','4',' ','2','8','-','0','7',' ','-',' ','S','u','b','h','a','r','m','o','n','i','c',' ','d','i','v','i','s','i','o','n',' ','o','f',' ','4',':',' ','S','u','b','h','a','r','m','o','n','i','c','s',' ','2','8','-','0','7'], ['2','1'], ['!'], ['2','8','/','2','7'], ['1','4','/','1','3'], ['2','8','/','2','5'], ['7','/','6'], ['2','8','/','2','3'], ['1','4','/','1','1'], ['4','/','3'], ['7','/','5'], ['2','8','/','1','9'], ['1','4','/','9'], ['2','8','/','1','7'], ['7','/','4'], ['2','8','/','1','5'], ['2','/','1'], ['2','8','/','1','3'], ['7','/','3'], ['2','8','/','1','1'], ['1','4','/','5'], ['2','8','/','9'], ['7','/','2'], ['4','/','1'], []]⟩,
  ⟨['S','D','4','_','3','2','_','0','8'], 4, 32, 8, [['!',' ','S','D','4',' ','3','2','-','0','8','.','s','c','l'], ['!'], ['S','D','4',' ','3','2','-','0','8',' ','-',' ','S','u','b','h','a','r','m','o','n','i','c',' ','d','i','v','i','s','i','o','n',' ','o','f',' ','4',':',' ','S','u','b','h','a','r','m','o','n','i','c','s',' ','3','2','-','0','8'], ['2','4'], ['!'], ['3','2','/','3','1'], ['1','6','/','1','5'], ['3','2','/','2','9'], ['8','/','7'], ['3','2','/','2','7'], ['1','6','/','1','3'], ['3','2','/','2','5'], ['4','/','3'], ['3','2','/','2','3'], ['1','6','/','1','1'], ['3','2','/','2','1'], ['8','/','5'], ['3','2','/','1','9'], ['1','6','/','9'], ['3','2','/','1','7'], ['2','/','1'], ['3','2','/','1','5'], ['1','6','/','7'], ['3','2','/','1','3'], ['8','/','3'], ['3','2','/','1','1'], ['1','6','/','5'], ['3','2','/','9'], ['4','/','1'], []]⟩,
  ⟨['S','D','4','_','3','6','_','0','9'], 4, 36, 9, [['!',' ','S','D','4',' ','3','6','-','0','9','.','s','c','l'], ['!'], ['S','D','4',' ','3','6','-','0','9',' ','-',' ','S','u','b','h','a','r','m','o','n','i','c',' ','d','i','v','i','s','i','o','n',' ','o','f',' ','4',':',' ','S','u','b','h','a','r','m','o','n','i','c','s',' ','3','6','-','0','9'], ['2','7'], ['!'], ['3','6','/','3','5'], ['1','8','/','1','7'], ['1','2','/','1','1'], ['9','/','8'], ['3','6','/','3','1'], ['6','/','5'], ['3','6','/','2','9'], ['9','/','7'], ['4','/','3'], ['1','8','/','1','3'], ['3','6','/','2','5'], ['3','/','2'], ['3','6','/','2','3'], ['1','8','/','1','1'], ['1','2','/','7'], ['9','/','5'], ['3','6','/','1','9'], ['2','/','1'], ['3','6','/','1','7'], ['9','/','4'], ['1','2','/','5'], ['1','8','/','7'], ['3','6','/','1','3'], ['3','/','1'], ['3','6','/','1','1'], ['1','8','/','5'], ['4','/','1'], []]⟩,
  ⟨['S','D','4','_','4','0','_','1','0'], 4, 40, 10, [['!',' ','S','D','4',' ','4','0','-','1','0','.','s','c','l'], ['!'], ['S','D','4',' ','4','0','-','1','0',' ','-',' ','S','u','b','h','a','r','m','o','n','i','c',' ','d','i','v','i','s','i','o','n',' ','o','f',' ','4',':',' ','S','u','b','h','a','r','m','o','n','i','c','s',' ','4','0','-','1','0'], ['3','0'], ['!'], ['4','0','/','3','9'], ['2','0','/','1','9'], ['4','0','/','3','7'], ['1','0','/','9'], ['8','/','7'], ['2','0','/','1','7'], ['4','0','/','3','3'], ['5','/','4'], ['4','0','/','3','1'], ['4','/','3'], ['4','0','/','2','9'], ['1','0','/','7'], ['4','0','/','2','7'], ['2','0','/','1','3'], ['8','/','5'], ['5','/','3'], ['4','0','/','2','3'], ['2','0','/','1','1'], ['4','0','/','2','1'], ['2','/','1'], ['4','0','/','1','9'], ['2','0','/','9'], ['4','0','/','1','7'], ['5','/','2'], ['8','/','3'], ['2','0','/','7'], ['4','0','/','1','3'], ['1','0','/','3'], ['4','0','/','1','1'], ['4','/','1'], []]⟩,
  ⟨['S','D','4','_','4','4','_','1','1'], 4, 44, 11, [['!',' ','S','D','4',' ','4','4','-','1','1','.','s','c','l'], ['!'], ['S','D','4',' ','4','4','-','1','1',' ','-',' ','S','u','b','h','a','r','m','o','n','i','c',' ','d','i','v','i','s','i','o','n',' ','o','f',' ','4',':',' ','S','u','b','h','a','r','m','o','n','i','c','s',' ','4','4','-','1','1'], ['3','3'], ['!'], ['4','4','/','4','3'], ['2','2','/','2','1'], ['4','4','/','4','1'], ['1','1','/','1','0'], ['4','4','/','3','9'], ['2','2','/','1','9'], ['4','4','/','3','7'], ['1','1','/','9'], ['4','4','/','3','5'], ['2','2','/','1','7'], ['4','/','3'], ['1','1','/','8'], ['4','4','/','3','1'], ['2','2','/','1','5'], ['4','4','/','2','9'], ['1','1','/','7'], ['4','4','/','2','7'], ['2','2','/','1','3'], ['4','4','/','2','5'], ['1','1','/','6'], ['4','4','/','2','3'], ['2','/','1'], ['4','4','/','2','1'], ['1','1','/','5'], ['4','4','/','1','9'], ['2','2','/','9'], ['4','4','/','1','7'], ['1','1','/','4'], ['4','4','/','1','5'], ['2','2','/','7'], ['4','4','/','1','3'], ['1','1','/','3'], ['4','/','1'], []]⟩,
  ⟨['S','D','4','_','4','8','_','1','2'], 4, 48, 12, [['!',' ','S','D','4',' ','4','8','-','1','2','.','s','c','l'], ['!'], ['3','6'], ['!'], ['4','8','/','4','7'], ['2','4','/','2','3'], ['1','6','/','1','5'], ['1','2','/','1','1'], ['4','8','/','4','3'], ['8','/','7'], ['4','8','/','4','1'], ['6','/','5'], ['1','6','/','1','3'], ['2','4','/','1','9'], ['4','8','/','3','7'], ['4','/','3'], ['4','8','/','3','5'], ['2','4','/','1','7'], ['1','6','/','1','1'], ['3','/','2'], ['4','8','/','3','1'], ['8','/','5'], ['4','8','/','2','9'], ['1','2','/','7'], ['1','6','/','9'], ['2','4','/','1','3'], ['4','8','/','2','5'], ['2','/','1'], ['4','8','/','2','3'], ['2','4','/','1','1'], ['1','6','/','7'], ['1','2','/','5'], ['4','8','/','1','9'], ['8','/','3'], ['4','8','/','1','7'], ['3','/','1'], ['1','6','/','5'], ['2','4','/','7'], ['4','8','/','1','3'], ['4','/','1'], []]⟩,
  ⟨['S','D','4','_','5','2','_','1','3'], 4, 52, 13, [['!',' ','S','D','4',' ','5','2','-','1','3','.','s','c','l'], ['!'], ['S','D','4',' ','5','2','-','1','3',' ','-',' ','S','u','b','h','a','r','m','o','n','i','c',' ','d','i','v','i','s','i','o','n',' ','o','f',' ','4',':',' ','S','u','b','h','a','r','m','o','n','i','c','s',' ','5','2','-','1','3'], ['3','9'], ['!'], ['5','2','/','5','1'], ['2','6','/','2','5'], ['5','2','/','4','9'], ['1','3','/','1','2'], ['5','2','/','4','7'], ['2','6','/','2','3'], ['5','2','/','4','5'], ['1','3','/','1','1'], ['5','2','/','4','3'], ['2','6','/','2','1'], ['5','2','/','4','1'], ['1','3','/','1','0'], ['4','/','3'], ['2','6','/','1','9'], ['5','2','/','3','7'], ['1','3','/','9'], ['5','2','/','3','5'], ['2','6','/','1','7'], ['5','2','/','3','3'], ['1','3','/','8'], ['5','2','/','3','1'], ['2','6','/','1','5'], ['5','2','/','2','9'], ['1','3','/','7'], ['5','2','/','2','7'], ['2','/','1'], ['5','2','/','2','5'], ['1','3','/','6'], ['5','2','/','2','3'], ['2','6','/','1','1'], ['5','2','/','2','1'], ['1','3','/','5'], ['5','2','/','1','9'], ['2','6','/','9'], ['5','2','/','1','7'], ['1','3','/','4'], ['5','2','/','1','5'], ['2','6','/','7'], ['4','/','1'], []]⟩,
  ⟨['S','D','4','_','5','6','_','1','4'], 4, 56, 14, [['!',' ','S','D','4',' ','5','6','-','1','4','.','s','c','l'], ['!'], ['S','D','4',' ','5','6','-','1','4',' ','-',' ','S','u','b','h','a','r','m','o','n','i','c',' ','d','i','v','i','s','i','o','n',' ','o','f',' ','4',':',' ','S','u','b','h','a','r','m','o','n','i','c','s',' ','5','6','-','1','4'], ['4','2'], ['!'], ['5','6','/','5','5'], ['2','8','/','2','7'], ['5','6','/','5','3'], ['1','4','/','1','3'], ['5','6','/','5','1'], ['2','8','/','2','5'], ['8','/','7'], ['7','/','6'], ['5','6','/','4','7'], ['2','8','/','2','3'], ['5','6','/','4','5'], ['1','4','/','1','1'], ['5','6','/','4','3'], ['4','/','3'], ['5','6','/','4','1'], ['7','/','5'], ['5','6','/','3','9'], ['2','8','/','1','9'], ['5','6','/','3','7'], ['1','4','/','9'], ['8','/','5'], ['2','8','/','1','7'], ['5','6','/','3','3'], ['7','/','4'], ['5','6','/','3','1'], ['2','8','/','1','5'], ['5','6','/','2','9'], ['2','/','1'], ['5','6','/','2','7'], ['2','8','/','1','3'], ['5','6','/','2','5'], ['7','/','3'], ['5','6','/','2','3'], ['2','8','/','1','1'], ['8','/','3'], ['1','4','/','5'], ['5','6','/','1','9'], ['2','8','/','9'], ['5','6','/','1','7'], ['7','/','2'], ['5','6','/','1','5'], ['4','/','1'], []]⟩,
  ⟨['S','D','4','_','6','0','_','1','5'], 4, 60, 15, [['!',' ','S','D','4',' ','6','0','-','1','5','.','s','c','l'], ['!'], ['S','D','4',' ','6','0','-','1','5',' ','-',' ','S','u','b','h','a','r','m','o','n','i','c',' ','d','i','v','i','s','i','o','n',' ','o','f',' ','4',':',' ','S','u','b','h','a','r','m','o','n','i','c','s',' ','6','0','-','1','5'], ['4','5'], ['!'], ['6','0','/','5','9'], ['3','0','/','2','9'], ['2','0','/','1','9'], ['1','5','/','1','4'], ['1','2','/','1','1'], ['1','0','/','9'], ['6','0','/','5','3'], ['1','5','/','1','3'], ['2','0','/','1','7'], ['6','/','5'], ['6','0','/','4','9'], ['5','/','4'], ['6','0','/','4','7'], ['3','0','/','2','3'], ['4','/','3'], ['1','5','/','1','1'], ['6','0','/','4','3'], ['1','0','/','7'], ['6','0','/','4','1'], ['3','/','2'], ['2','0','/','1','3'], ['3','0','/','1','9'], ['6','0','/','3','7'], ['5','/','3'], ['1','2','/','7'], ['3','0','/','1','7'], ['2','0','/','1','1'], ['1','5','/','8'], ['6','0','/','3','1'], ['2','/','1'], ['6','0','/','2','9'], ['1','5','/','7'], ['2','0','/','9'], ['3','0','/','1','3'], ['1','2','/','5'], ['5','/','2'], ['6','0','/','2','3'], ['3','0','/','1','1'], ['2','0','/','7'], ['3','/','1'], ['6','0','/','1','9'], ['1','0','/','3'], ['6','0','/','1','7'], ['1','5','/','4'], ['4','/','1'], []]⟩,
  ⟨['S','D','4','_','6','4','_','1','6'], 4, 64, 16, [['!',' ','S','D','4',' ','6','4','-','1','6','.','s','c','l'], ['!'], ['S','D','4',' ','6','4','-','1','6',' ','-',' ','S','u','b','h','a','r','m','o','n','i','c',' ','d','i','v','i','s','i','o','n',' ','o','f',' ','4',':',' ','S','u','b','h','a','r','m','o','n','i','c','s',' ','6','4','-','1','6'], ['4','8'], ['!'], ['6','4','/','6','3'], ['3','2','/','3','1'], ['6','4','/','6','1'], ['1','6','/','1','5'], ['6','4','/','5','9'], ['3','2','/','2','9'], ['6','4','/','5','7'], ['8','/','7'], ['6','4','/','5','5'], ['3','2','/','2','7'], ['6','4','/','5','3'], ['1','6','/','1','3'], ['6','4','/','5','1'], ['3','2','/','2','5'], ['6','4','/','4','9'], ['4','/','3'], ['6','4','/','4','7'], ['3','2','/','2','3'], ['6','4','/','4','5'], ['1','6','/','1','1'], ['6','4','/','4','3'], ['3','2','/','2','1'], ['6','4','/','4','1'], ['8','/','5'], ['6','4','/','3','9'], ['3','2','/','1','9'], ['6','4','/','3','7'], ['1','6','/','9'], ['6','4','/','3','5'], ['3','2','/','1','7'], ['6','4','/','3','3'], ['2','/','1'], ['6','4','/','3','1'], ['3','2','/','1','5'], ['6','4','/','2','9'], ['1','6','/','7'], ['6','4','/','2','7'], ['3','2','/','1','3'], ['6','4','/','2','5'], ['8','/','3'], ['6','4','/','2','3'], ['3','2','/','1','1'], ['6','4','/','2','1'], ['1','6','/','5'], ['6','4','/','1','9'], ['3','2','/','9'], ['6','4','/','1','7'], ['4','/','1'], []]⟩]

end Verif.Tuning.Builtin
