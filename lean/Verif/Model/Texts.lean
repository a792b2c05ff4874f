/-! # The configuration texts printed in the code and in the manual

Generated from /repo by copying the bytes; a byte above 127 is the character with that number. -/

namespace FNLog

/-- The configuration of `FastStartDefaultLogger()`: /repo/src/include/fn_macro.h 54-102. -/
def defaultText : List Char := List.flatten
  [['\n'],
   [' ','#',' ','d','e','f','a','u','l','t',' ','c','h','a','n','n','e','l',' ','0','\n'],
   [' ',' ',' ','#',' ','w','r','i','t','e',' ','f','u','l','l',' ','l','o','g',' ','t','o',' ','p','n','a','m','e','.','l','o','g',' ','\n'],
   [' ',' ',' ','#',' ','w','r','i','t','e',' ','e','r','r','o','r',' ','l','o','g',' ','t','o',' ','p','n','a','m','e','_','e','r','r','o','r','.','l','o','g',' ','\n'],
   [' ',' ',' ','#',' ','v','i','e','w',' ',' ','i','n','f','o',' ','l','o','g',' ','t','o',' ','s','c','r','e','e','n',' ','\n'],
   [' ','#',' ','s','y','n','c',' ','c','h','a','n','n','e','l',' ','1',' ','\n'],
   [' ',' ',' ','#',' ','w','r','i','t','e',' ','f','u','l','l',' ','l','o','g',' ','t','o',' ','p','n','a','m','e','.','l','o','g','\n'],
   [' ',' ',' ','#',' ','w','r','i','t','e',' ','i','n','f','o',' ','l','o','g',' ','t','o',' ','p','n','a','m','e','_','i','n','f','o','.','l','o','g','\n'],
   [' ',' ',' ','#',' ','v','i','e','w',' ',' ','i','n','f','o',' ','l','o','g',' ','t','o',' ','s','c','r','e','e','n',' ','\n'],
   ['\n'],
   [' ','-',' ','c','h','a','n','n','e','l',':',' ','0','\n'],
   [' ',' ',' ',' ','s','y','n','c',':',' ','a','s','y','n','c','\n'],
   [' ',' ',' ',' ','-','d','e','v','i','c','e',':',' ','0','\n'],
   [' ',' ',' ',' ',' ',' ',' ',' ','d','i','s','a','b','l','e',':',' ','f','a','l','s','e','\n'],
   [' ',' ',' ',' ',' ',' ',' ',' ','o','u','t','_','t','y','p','e',':',' ','f','i','l','e','\n'],
   [' ',' ',' ',' ',' ',' ',' ',' ','f','i','l','e',':',' ','"','$','P','N','A','M','E','"','\n'],
   [' ',' ',' ',' ',' ',' ',' ',' ','r','o','l','l','b','a','c','k',':',' ','4','\n'],
   [' ',' ',' ',' ',' ',' ',' ',' ','l','i','m','i','t','_','s','i','z','e',':',' ','1','0','0',' ','m',' ','#','o','n','l','y',' ','s','u','p','p','o','r','t',' ','M',' ','b','y','t','e','\n'],
   [' ',' ',' ',' ','-','d','e','v','i','c','e',':',' ','1','\n'],
   [' ',' ',' ',' ',' ',' ',' ',' ','d','i','s','a','b','l','e',':',' ','f','a','l','s','e','\n'],
   [' ',' ',' ',' ',' ',' ',' ',' ','o','u','t','_','t','y','p','e',':',' ','f','i','l','e','\n'],
   [' ',' ',' ',' ',' ',' ',' ',' ','p','r','i','o','r','i','t','y',':',' ','e','r','r','o','r','\n'],
   [' ',' ',' ',' ',' ',' ',' ',' ','f','i','l','e',':',' ','"','$','P','N','A','M','E','_','e','r','r','o','r','"','\n'],
   [' ',' ',' ',' ',' ',' ',' ',' ','r','o','l','l','b','a','c','k',':',' ','4','\n'],
   [' ',' ',' ',' ',' ',' ',' ',' ','l','i','m','i','t','_','s','i','z','e',':',' ','1','0','0',' ','m',' ','#','o','n','l','y',' ','s','u','p','p','o','r','t',' ','M',' ','b','y','t','e','\n'],
   [' ',' ',' ',' ','-','d','e','v','i','c','e',':','2','\n'],
   [' ',' ',' ',' ',' ',' ',' ',' ','d','i','s','a','b','l','e',':',' ','f','a','l','s','e','\n'],
   [' ',' ',' ',' ',' ',' ',' ',' ','o','u','t','_','t','y','p','e',':',' ','s','c','r','e','e','n','\n'],
   [' ',' ',' ',' ',' ',' ',' ',' ','p','r','i','o','r','i','t','y',':',' ','i','n','f','o','\n'],
   [' ','-',' ','c','h','a','n','n','e','l',':',' ','1','\n'],
   [' ',' ',' ',' ','s','y','n','c',':',' ','s','y','n','c','\n'],
   [' ',' ',' ',' ','-','d','e','v','i','c','e',':',' ','0','\n'],
   [' ',' ',' ',' ',' ',' ',' ',' ','d','i','s','a','b','l','e',':',' ','f','a','l','s','e','\n'],
   [' ',' ',' ',' ',' ',' ',' ',' ','o','u','t','_','t','y','p','e',':',' ','f','i','l','e','\n'],
   [' ',' ',' ',' ',' ',' ',' ',' ','f','i','l','e',':',' ','"','$','P','N','A','M','E','_','s','y','n','c','"','\n'],
   [' ',' ',' ',' ',' ',' ',' ',' ','r','o','l','l','b','a','c','k',':',' ','4','\n'],
   [' ',' ',' ',' ',' ',' ',' ',' ','l','i','m','i','t','_','s','i','z','e',':',' ','1','0','0',' ','m',' ','#','o','n','l','y',' ','s','u','p','p','o','r','t',' ','M',' ','b','y','t','e','\n'],
   [' ',' ',' ',' ','-','d','e','v','i','c','e',':',' ','1','\n'],
   [' ',' ',' ',' ',' ',' ',' ',' ','d','i','s','a','b','l','e',':',' ','f','a','l','s','e','\n'],
   [' ',' ',' ',' ',' ',' ',' ',' ','o','u','t','_','t','y','p','e',':',' ','f','i','l','e','\n'],
   [' ',' ',' ',' ',' ',' ',' ',' ','p','r','i','o','r','i','t','y',':',' ','i','n','f','o','\n'],
   [' ',' ',' ',' ',' ',' ',' ',' ','f','i','l','e',':',' ','"','$','P','N','A','M','E','_','s','y','n','c','_','i','n','f','o','"','\n'],
   [' ',' ',' ',' ',' ',' ',' ',' ','r','o','l','l','b','a','c','k',':',' ','4','\n'],
   [' ',' ',' ',' ',' ',' ',' ',' ','l','i','m','i','t','_','s','i','z','e',':',' ','1','0','0',' ','m',' ','#','o','n','l','y',' ','s','u','p','p','o','r','t',' ','M',' ','b','y','t','e','\n'],
   [' ',' ',' ',' ','-','d','e','v','i','c','e',':','2','\n'],
   [' ',' ',' ',' ',' ',' ',' ',' ','d','i','s','a','b','l','e',':',' ','f','a','l','s','e','\n'],
   [' ',' ',' ',' ',' ',' ',' ',' ','o','u','t','_','t','y','p','e',':',' ','s','c','r','e','e','n','\n'],
   [' ',' ',' ',' ',' ',' ',' ',' ','p','r','i','o','r','i','t','y',':',' ','i','n','f','o',' ','\n']]

/-- /repo/README.md 100-137, "Fast Use Example With Yaml File". -/
def manualFastUse : List Char := List.flatten
  [['#',' ','\xe9','\x85','\x8d','\xe8','\xa1','\xa8','\xe6','\x96','\x87','\xe4','\xbb','\xb6',' ',' ','\n'],
   ['\n'],
   [' ','h','o','t','_','u','p','d','a','t','e',':',' ','t','r','u','e','\n'],
   ['#',' ','0','\xe9','\x80','\x9a','\xe9','\x81','\x93','\xe4','\xb8','\xba','\xe5','\xa4','\x9a','\xe7','\xba','\xbf','\xe7','\xa8','\x8b','\xe5','\xb8','\xa6','\xe6','\x96','\x87','\xe4','\xbb','\xb6','\xe5','\x92','\x8c','\xe5','\xb1','\x8f','\xe6','\x98','\xbe','\xe8','\xbe','\x93','\xe5','\x87','\xba','\n'],
   [' ','-',' ','c','h','a','n','n','e','l',':',' ','0',' ',' ','\n'],
   [' ',' ',' ',' ','p','r','i','o','r','i','t','y',':',' ','t','r','a','c','e','\n'],
   [' ',' ',' ',' ','c','a','t','e','g','o','r','y',':',' ','0','\n'],
   [' ',' ',' ',' ','c','a','t','e','g','o','r','y','_','e','x','t','e','n','d',':',' ','0','\n'],
   [' ',' ',' ',' ','-','d','e','v','i','c','e',':',' ','0','\n'],
   [' ',' ',' ',' ',' ',' ',' ',' ','d','i','s','a','b','l','e',':',' ','f','a','l','s','e','\n'],
   [' ',' ',' ',' ',' ',' ',' ',' ','o','u','t','_','t','y','p','e',':',' ','f','i','l','e','\n'],
   [' ',' ',' ',' ',' ',' ',' ',' ','p','r','i','o','r','i','t','y',':',' ','t','r','a','c','e','\n'],
   [' ',' ',' ',' ',' ',' ',' ',' ','c','a','t','e','g','o','r','y',':',' ','0','\n'],
   [' ',' ',' ',' ',' ',' ',' ',' ','c','a','t','e','g','o','r','y','_','e','x','t','e','n','d',':',' ','0','\n'],
   [' ',' ',' ',' ',' ',' ',' ',' ','p','a','t','h',':',' ','"','.','/','l','o','g','/','"','\n'],
   [' ',' ',' ',' ',' ',' ',' ',' ','f','i','l','e',':',' ','"','$','P','N','A','M','E','_','$','Y','E','A','R','$','M','O','N','$','D','A','Y','"','\n'],
   [' ',' ',' ',' ',' ',' ',' ',' ','r','o','l','l','b','a','c','k',':',' ','4','\n'],
   [' ',' ',' ',' ',' ',' ',' ',' ','l','i','m','i','t','_','s','i','z','e',':',' ','1','0','0','0',' ','m',' ','#','o','n','l','y',' ','s','u','p','p','o','r','t',' ','M',' ','b','y','t','e','\n'],
   [' ',' ',' ',' ','-','d','e','v','i','c','e',':',' ','1','\n'],
   [' ',' ',' ',' ',' ',' ',' ',' ','d','i','s','a','b','l','e',':',' ','f','a','l','s','e','\n'],
   [' ',' ',' ',' ',' ',' ',' ',' ','o','u','t','_','t','y','p','e',':',' ','s','c','r','e','e','n','\n'],
   [' ',' ',' ',' ',' ',' ',' ',' ','c','a','t','e','g','o','r','y',':',' ','0','\n'],
   [' ',' ',' ',' ',' ',' ',' ',' ','c','a','t','e','g','o','r','y','_','e','x','t','e','n','d',':',' ','0','\n'],
   [' ','#',' ','1','\xe9','\x80','\x9a','\xe9','\x81','\x93','\xe4','\xb8','\xba','\xe5','\xa4','\x9a','\xe7','\xba','\xbf','\xe7','\xa8','\x8b','\xe4','\xb8','\x8d','\xe6','\x8c','\x82','\xe4','\xbb','\xbb','\xe4','\xbd','\x95','\xe8','\xbe','\x93','\xe5','\x87','\xba','\xe7','\xab','\xaf','\n'],
   [' ','-',' ','c','h','a','n','n','e','l',':',' ','1','\n'],
   ['\n'],
   [' ','#',' ','2','\xe9','\x80','\x9a','\xe9','\x81','\x93','\xe4','\xb8','\xba','\xe5','\x8d','\x95','\xe7','\xba','\xbf','\xe7','\xa8','\x8b','\xe5','\x90','\x8c','\xe6','\xad','\xa5','\xe5','\x86','\x99','\xe6','\x96','\x87','\xe4','\xbb','\xb6','\n'],
   [' ','-',' ','c','h','a','n','n','e','l',':',' ','2','\n'],
   [' ',' ',' ',' ','s','y','n','c','_','w','r','i','t','e',':',' ','1',' ','#','o','n','l','y',' ','s','u','p','p','o','r','t',' ','s','i','n','g','l','e',' ','t','h','r','e','a','d','\n'],
   [' ',' ',' ',' ','-','d','e','v','i','c','e',':',' ','0','\n'],
   [' ',' ',' ',' ',' ',' ',' ',' ','d','i','s','a','b','l','e',':',' ','f','a','l','s','e','\n'],
   [' ',' ',' ',' ',' ',' ',' ',' ','o','u','t','_','t','y','p','e',':',' ','f','i','l','e','\n'],
   ['\n'],
   [' ','#',' ','3','\xe9','\x80','\x9a','\xe9','\x81','\x93','\xe4','\xb8','\xba','\xe5','\x8d','\x95','\xe7','\xba','\xbf','\xe7','\xa8','\x8b','\xe6','\x97','\xa0','\xe8','\xbe','\x93','\xe5','\x87','\xba','\xe7','\xab','\xaf','\n'],
   [' ','-',' ','c','h','a','n','n','e','l',':',' ','3','\n'],
   [' ',' ',' ',' ','s','y','n','c','_','w','r','i','t','e',':',' ','1',' ','#','o','n','l','y',' ','s','u','p','p','o','r','t',' ','s','i','n','g','l','e',' ','t','h','r','e','a','d','\n'],
   ['\n'],
   ['\n']]

/-- /repo/README.md 384-479, "default_log.yaml". -/
def manualDefaultLog : List Char := List.flatten
  [['\n'],
   ['#',' ','\xe5','\x9f','\xba','\xe7','\xa1','\x80','\xe8','\xaf','\xad','\xe6','\xb3','\x95',' ',' ',' ','\n'],
   ['#','#',' ','\xe7','\xbc','\xa9','\xe8','\xbf','\x9b',' ','\xe7','\x9b','\xb8','\xe5','\x90','\x8c','s','c','o','p','e','\xe7','\x9a','\x84','f','i','e','l','d','\xe9','\x9c','\x80','\xe8','\xa6','\x81','\xe4','\xbf','\x9d','\xe6','\x8c','\x81','\xe7','\xbc','\xa9','\xe8','\xbf','\x9b','\xe4','\xb8','\x80','\xe8','\x87','\xb4','\n'],
   ['#','#',' ','\xe7','\xbc','\xa9','\xe8','\xbf','\x9b',' ','\xe5','\xad','\x90','\xe5','\xb1','\x82','\xe7','\xba','\xa7','f','i','e','l','d','\xe7','\xbc','\xa9','\xe8','\xbf','\x9b','\xe5','\xa4','\xa7','\xe4','\xba','\x8e','\xe7','\x88','\xb6','\xe5','\xb1','\x82','\xe7','\xba','\xa7','f','i','e','l','d',' ',' ','\n'],
   ['\n'],
   ['#','#',' ','\xe6','\x95','\xb0','\xe7','\xbb','\x84',' ','\xe4','\xbb','\xa5','-','\xe4','\xb8','\xba','\xe5','\x89','\x8d','\xe7','\xbc','\x80',' ','\xe9','\x9c','\x80','\xe8','\xa6','\x81','\xe6','\x94','\xbe','\xe5','\x9c','\xa8','k','e','y','\xe4','\xb9','\x8b','\xe5','\x89','\x8d',' ',' ',' ','\n'],
   ['#','#',' ','\xe6','\xb3','\xa8','\xe9','\x87','\x8a',' ','\xe4','\xbb','\xbb','\xe6','\x84','\x8f','\xe8','\xa1','\x8c','\xe5','\x86','\x85','\xe8','\xaf','\xbb','\xe5','\x88','\xb0','#','\xe4','\xb9','\x8b','\xe5','\x90','\x8e','\xe4','\xbc','\x9a','\xe5','\x81','\x9c','\xe6','\xad','\xa2','\xe8','\xaf','\xa5','\xe8','\xa1','\x8c','\xe7','\x9a','\x84','\xe8','\xa7','\xa3','\xe6','\x9e','\x90','\xe6','\x93','\x8d','\xe4','\xbd','\x9c',',',' ','\xe5','\x8d','\xb3','\xe4','\xbd','\xbf','\xe4','\xbd','\x8d','\xe4','\xba','\x8e','\xe5','\xbc','\x95','\xe5','\x8f','\xb7','\xe5','\x86','\x85','.',' ',' ','\n'],
   ['#','#',' ','k','v','\xe5','\x88','\x86','\xe9','\x9a','\x94','\xe7','\xac','\xa6',' ',':',' ','\n'],
   ['#','#',' ','\xe7','\xa9','\xba','\xe7','\x99','\xbd','\xe7','\xac','\xa6',' ','\xe9','\x80','\x9a','\xe5','\xb8','\xb8','\xe8','\xaf','\xbb','\xe5','\x88','\xb0','\xe7','\xa9','\xba','\xe7','\x99','\xbd','\xe7','\xac','\xa6','\xe4','\xbc','\x9a','\xe8','\x87','\xaa','\xe5','\x8a','\xa8','\xe8','\xb7','\xb3','\xe8','\xbf','\x87',',',' ','\xe4','\xbd','\x86','\xe4','\xb8','\x8d','\xe5','\x8c','\x85','\xe6','\x8b','\xac','\xe5','\xb0','\xbe','\xe9','\x9a','\x8f','\xe5','\x9c','\xa8','\xe5','\x80','\xbc','\xe4','\xb8','\xad','\xe9','\x97','\xb4','\xe7','\x9a','\x84','\xe7','\xa9','\xba','\xe7','\x99','\xbd','\xe7','\xac','\xa6',' ',' ','\n'],
   ['#','#',' ','k','e','y',' ','\xe5','\xbf','\x85','\xe9','\xa1','\xbb','\xe4','\xb8','\xba','\xe5','\xb0','\x8f','\xe5','\x86','\x99','\xe5','\xad','\x97','\xe6','\xaf','\x8d','\xe5','\x92','\x8c','\xe4','\xb8','\x8b','\xe5','\x88','\x92','\xe7','\xba','\xbf',' ','\xe4','\xb8','\x8d','\xe5','\x85','\x81','\xe8','\xae','\xb8','\xe5','\x85','\xb6','\xe4','\xbb','\x96','\xe5','\x80','\xbc',' ',' ','\n'],
   ['#','#',' ','\xe5','\x80','\xbc',' ','\xe4','\xbc','\x9a','\xe8','\x87','\xaa','\xe5','\x8a','\xa8','\xe8','\xa3','\x81','\xe5','\x88','\x87','\xe5','\x89','\x8d','\xe7','\xbc','\x80','\xe7','\xa9','\xba','\xe7','\x99','\xbd',' ',' ','\n'],
   ['#','#',' ','\xe5','\x80','\xbc',' ','\xe7','\x9a','\x84','\xe8','\xa1','\x8c','\xe5','\xb0','\xbe','\xe8','\xbe','\xb9','\xe7','\x95','\x8c','\xe6','\x9c','\x89','[','"','#','\\','r','\\','n','\\','0',']','\n'],
   ['#','#',' ','\xe5','\x80','\xbc',' ','\xe7','\x9a','\x84','\xe5','\x86','\x85','\xe5','\xae','\xb9','\xe5','\x81','\x9a','\xe4','\xba','\x86','\xe7','\xba','\xa6','\xe6','\x9d','\x9f',' ','\xe8','\x8c','\x83','\xe5','\x9b','\xb4','\xe4','\xb8','\xba',':',' ','\xe5','\xad','\x97','\xe7','\xac','\xa6','\xe6','\x95','\xb0','\xe5','\xad','\x97','[','a','-','z','A','-','Z','0','-','9',']',' ',' ','[','_','-',':','/','.',',','$','~','%',']',' ',' ',' ','\n'],
   ['#','#',' ','\xe5','\x80','\xbc',' ','\xe7','\x9a','\x84','\xe5','\x86','\x85','\xe5','\xae','\xb9','\xe9','\x9c','\x80','\xe6','\xb1','\x82','\xe4','\xb8','\x8a','\xe4','\xb8','\xba',' ','\xe6','\x96','\x87','\xe4','\xbb','\xb6','\xe5','\x90','\x8d','\xe5','\x92','\x8c','\xe8','\xb7','\xaf','\xe5','\xbe','\x84',' ','\xe6','\x95','\xb0','\xe5','\xad','\x97',' ','\xe5','\xad','\x97','\xe7','\xac','\xa6',' ','\xe5','\x9b','\xa0','\xe6','\xad','\xa4','\xe9','\x80','\x9a','\xe8','\xbf','\x87','\xe7','\xba','\xa6','\xe6','\x9d','\x9f','\xe5','\x8f','\xaf','\xe4','\xbb','\xa5','\xe5','\x87','\x8f','\xe5','\xb0','\x91','\xe4','\xb8','\x8d','\xe5','\xbf','\x85','\xe8','\xa6','\x81','\xe7','\x9a','\x84','\xe9','\x85','\x8d','\xe7','\xbd','\xae','\xe9','\x97','\xae','\xe9','\xa2','\x98',' ',' ','\n'],
   ['\n'],
   ['#',' ','\xe9','\x94','\x99','\xe8','\xaf','\xaf','\xe7','\xa0','\x81',' ',' ','\xe4','\xbb','\xa3','\xe7','\xa0','\x81','\xe4','\xb8','\xad','\xe6','\x90','\x9c','\xe7','\xb4','\xa2','P','a','r','s','e','E','r','r','o','r','C','o','d','e',',',' ','E','r','r','N','o','\xe6','\x9f','\xa5','\xe6','\x89','\xbe','\xe5','\xaf','\xb9','\xe5','\xba','\x94','\xe8','\xaf','\xb4','\xe6','\x98','\x8e','.',' ','\n'],
   ['\n'],
   ['#',' ','\xe5','\xae','\x8f','\xe8','\xaf','\xad','\xe4','\xb9','\x89',' ','\xe5','\xbd','\x93','\xe5','\x89','\x8d','\xe5','\xae','\x9e','\xe7','\x8e','\xb0','\xe6','\x96','\xb9','\xe5','\xbc','\x8f',' ','\xe5','\x8e','\x9f','\xe5','\x9c','\xb0','\xe6','\x9b','\xbf','\xe6','\x8d','\xa2','(','i','n','p','l','a','c','e',')','*','*','\xe9','\x9a','\x8f','\xe5','\x90','\x8e','*','*','\xe7','\x9a','\x84','\xe6','\x89','\x80','\xe6','\x9c','\x89','\xe5','\xad','\x97','\xe7','\xac','\xa6','\xe4','\xb8','\xb2','\xe5','\x86','\x85','\xe5','\xae','\xb9',' ',' ','\n'],
   ['#',' ','\xe5','\xae','\x8f','\xe8','\xaf','\xad','\xe4','\xb9','\x89',' ','\xe8','\xa6','\x81','\xe6','\xb3','\xa8','\xe6','\x84','\x8f','\xe6','\x9b','\xbf','\xe6','\x8d','\xa2','\xe5','\x90','\x8e','\xe7','\x9a','\x84','\xe5','\x86','\x85','\xe5','\xae','\xb9','\xe4','\xb8','\x8d','\xe8','\x83','\xbd','\xe9','\x95','\xbf','\xe4','\xba','\x8e','\xe5','\x8e','\x9f','\xe6','\x9c','\x89','\xe5','\x86','\x85','\xe5','\xae','\xb9',',',' ','\xe5','\x8f','\xaf','\xe4','\xbb','\xa5','\xe9','\x81','\xbf','\xe5','\x85','\x8d','\xe5','\x86','\x85','\xe5','\xad','\x98','\xe9','\x87','\x8d','\xe5','\x88','\x86','\xe9','\x85','\x8d','\xe5','\xbc','\x80','\xe9','\x94','\x80','.','\n'],
   ['#',' ','\xe5','\xae','\x8f','\xe8','\xaf','\xad','\xe4','\xb9','\x89',' ','\xe8','\xa6','\x81','\xe6','\xb3','\xa8','\xe6','\x84','\x8f','\xe4','\xb8','\x8d','\xe8','\xa6','\x81','\xe6','\x9b','\xbf','\xe6','\x8d','\xa2','\xe6','\x8e','\x89','\xe6','\xad','\xa3','\xe5','\xb8','\xb8','\xe7','\x9a','\x84','\xe5','\xad','\x97','\xe7','\xac','\xa6','\xe4','\xb8','\xb2',',',' ','\xe5','\x8c','\x85','\xe5','\x90','\xab','\xe5','\x80','\xbc','\xe4','\xb8','\xad','\xe7','\x9a','\x84','\xe5','\x86','\x85','\xe5','\xae','\xb9',' ',' ','\n'],
   [' ','\n'],
   ['\n'],
   ['#',' ','\xe5','\x8f','\x98','\xe9','\x87','\x8f',' ','\xe5','\x92','\x8c','\xe5','\xae','\x8f','\xe6','\x9b','\xbf','\xe6','\x8d','\xa2','\xe7','\xb1','\xbb','\xe4','\xbc','\xbc',',',' ','\xe4','\xb8','\x8d','\xe5','\x90','\x8c','\xe7','\x82','\xb9','\xe5','\x9c','\xa8','\xe4','\xba','\x8e','\xe6','\x89','\xa7','\xe8','\xa1','\x8c','\xe6','\x9b','\xbf','\xe6','\x8d','\xa2','\xe5','\x8a','\xa8','\xe4','\xbd','\x9c','\xe6','\x97','\xb6','\xe5','\x80','\x99','\xe4','\xbc','\x9a','\xe5','\xa2','\x9e','\xe5','\x8a','\xa0','\xe5','\x89','\x8d','\xe7','\xbc','\x80','$','\xe8','\xbf','\x9b','\xe8','\xa1','\x8c','\xe6','\x9b','\xbf','\xe6','\x8d','\xa2',',',' ','\xe5','\xb9','\xb6','\xe5','\x8c','\x85','\xe8','\xa3','\xb9','{','}','\xe9','\x87','\x8d','\xe5','\xa4','\x8d','\xe6','\x89','\xa7','\xe8','\xa1','\x8c','\xe4','\xb8','\x80','\xe6','\xac','\xa1','.',' ',' ',' ','\xe4','\xbe','\x8b','\xe5','\xa6','\x82','v','a','r',':','{','t','a','g','0','=','1','}',' ',' ','\xe4','\xbc','\x9a','\xe6','\x9b','\xbf','\xe6','\x8d','\xa2','\xe6','\x8e','\x89','$','{','t','a','g','0','}',' ','\xe5','\x92','\x8c',' ','$','t','a','g','0',' ',' ','\n'],
   ['\n'],
   ['#',' ','\xe5','\xae','\x8f',',','\xe5','\x8f','\x98','\xe9','\x87','\x8f',' ','\xe5','\x9d','\x87','\xe4','\xb8','\x8d','\xe8','\x83','\xbd','\xe9','\x87','\x8d','\xe5','\xa4','\x8d','\xe5','\xae','\x9a','\xe4','\xb9','\x89',' ','(','\xe6','\x9b','\xbf','\xe6','\x8d','\xa2','\xe6','\x97','\xa0','\xe6','\xb3','\x95','\xe5','\x86','\x8d','\xe6','\x9b','\xbf','\xe6','\x8d','\xa2',')',' ',' ',' ','\n'],
   ['#',' ','\xe5','\xae','\x8f',',','\xe5','\x8f','\x98','\xe9','\x87','\x8f',' ','\xe9','\x80','\x9a','\xe5','\xb8','\xb8','\xe4','\xb8','\xba','\xe7','\xac','\xa6','\xe5','\x8f','\xb7','\xe5','\x90','\x8d','+','\xe5','\xad','\x97','\xe9','\x9d','\xa2','\xe9','\x87','\x8f',' ','\xe7','\x94','\xa8','\xe6','\x9d','\xa5','\xe5','\xae','\x9a','\xe4','\xb9','\x89','\xe5','\x9c','\xa8','\xe9','\x9a','\x8f','\xe5','\x90','\x8e','\xe9','\x87','\x8d','\xe5','\xa4','\x8d','\xe4','\xbd','\xbf','\xe7','\x94','\xa8','\xe7','\x9a','\x84','\xe6','\x95','\xb0','\xe5','\xad','\x97','\xe7','\xb1','\xbb','\xe7','\xbc','\x96','\xe5','\x8f','\xb7',' ','c','a','t','e','g','o','r','y',',',' ','i','n','d','e','n','t','i','f','y',',',' ','m','a','s','k','\xe7','\xad','\x89',' ',' ','\n'],
   ['\n'],
   ['\n'],
   ['-',' ','d','e','f','i','n','e',':',' ','L','I','S','T','_','_','_','_','_','_',' ','0',',','1',',','2',',','3',' ',' ',' ','#',' ','u','s','e','d',' ','l','i','k','e',' ','c','-','s','t','y','l','e',';',' ',' ','w','a','r','n',':',' ','d','e','f',' ','n','a','m','e',' ','l','e','n',' ','m','u','s','t',' ','b','i','g','g','e','r',' ','t','h','a','n',' ','c','o','n','t','e','n','t','.',' ',' ',' ',' ','\n'],
   ['-',' ','d','e','f',':',' ','E','M','P','T','Y','_','_','_','_','_','_',' ',' ',' ',' ','\n'],
   ['\n'],
   ['-',' ','v','a','r',':',' ','i','d',' ','=',' ','2','3','4','\n'],
   ['-',' ','v','a','r',':',' ','i','d','0',' ','=',' ','0',',',' ','i','d','1',' ','=','1',' ',' ',' ',' ','#',' ','u','s','e',' ','v','a','r',' ','$','i','d','0',' ',' ','o','r',' ','$','{','i','d','0','}',' ',' ','\n'],
   ['-',' ','v','a','r',':',' ','{','k','e','y','=','"','s','s','s','"',',',' ','v','a','l','=','9','9','9','}',' ',' ',' ','\n'],
   ['\n'],
   ['\n'],
   ['#',' ','-',' ','s','h','m','_','k','e','y',':',' ','3','3','3','2','1','2','3','1','\n'],
   ['#',' ','-',' ','h','o','t','_','u','p','d','a','t','e',':','[','t','r','u','e',']','[','f','a','l','s','e',']','\n'],
   ['#',' ','-',' ','l','o','g','g','e','r','_','n','a','m','e',':',' ','s','t','r','i','n','g',' ',' ','#',' ','l','o','g',' ','c','o','n','t','e','n','t',' ','p','r','e','f','i','x',' ','"','L','O','G','_','P','R','E','F','I','X','_','N','A','M','E','"',' ','\n'],
   ['#',' ','-',' ','l','o','g','g','e','r','_','d','e','s','c',':',' ','s','t','r','i','n','g',' ',' ','#',' ','l','o','g',' ','c','o','n','t','e','n','t',' ','p','r','e','f','i','x',' ','"','L','O','G','_','P','R','E','F','I','X','_','D','E','S','C','"',' ','\n'],
   [' ','-',' ','c','h','a','n','n','e','l',':',' ','0','\n'],
   [' ',' ',' ',' ','s','y','n','c',':',' ','a','s','y','n','c',' ',' ','\n'],
   [' ',' ',' ',' ','#','s','y','n','c',':',' ','[','a','s','y','n','c',']','[','s','y','n','c',']','[','A','S','Y','N','C',']','[','S','Y','N','C',']','\n'],
   [' ',' ',' ',' ','#','p','r','i','o','r','i','t','y',':','[','t','r','a','c','e',']','[','d','e','b','u','g',']','[','i','n','f','o',']','[','w','a','r','n',']','[','e','r','r','o','r',']','[','a','l','a','r','m',']','[','f','a','t','a','l',']','\n'],
   [' ',' ',' ',' ','#','c','a','t','e','g','o','r','y',':',' ','i','d','\n'],
   [' ',' ',' ',' ','#','c','a','t','e','g','o','r','y','_','e','x','t','e','n','d',':',' ','c','o','u','n','t','\n'],
   [' ',' ',' ',' ','#','c','a','t','e','g','o','r','y','_','w','m','a','s','k',':',' ','2','5','5',' ','(','w','h','i','t','e',' ','m','a','s','k',')','\n'],
   [' ',' ',' ',' ','#','c','a','t','e','g','o','r','y','_','w','l','i','s','t',':',' ','{','2',',','3',',','4','3','}',' ','(','w','h','i','t','e',' ','l','i','s','t',')','\n'],
   [' ',' ',' ',' ','#','c','a','t','e','g','o','r','y','_','b','m','a','s','k',':',' ','2','5','5',' ','(','b','l','a','c','k',' ','m','a','s','k',')','\n'],
   [' ',' ',' ',' ','#','c','a','t','e','g','o','r','y','_','b','l','i','s','t',':',' ','{','1',',','2','3',',','4','}',' ','(','b','l','a','c','k',' ','l','i','s','t',')','\n'],
   [' ',' ',' ',' ','#','i','d','e','n','t','i','f','y',':',' ','i','d','\n'],
   [' ',' ',' ',' ','#','i','d','e','n','t','i','f','y','_','e','x','t','e','n','d',':',' ','c','o','u','n','t','\n'],
   [' ',' ',' ',' ','#','i','d','e','n','t','i','f','y','_','w','m','a','s','k',':',' ','2','5','5',' ','(','w','h','i','t','e',' ','m','a','s','k',')','\n'],
   [' ',' ',' ',' ','#','i','d','e','n','t','i','f','y','_','w','l','i','s','t',':',' ','{','2',',','3',',','4','3','}',' ','(','w','h','i','t','e',' ','l','i','s','t',')','\n'],
   [' ',' ',' ',' ','#','i','d','e','n','t','i','f','y','_','b','m','a','s','k',':',' ','2','5','5',' ','(','b','l','a','c','k',' ','m','a','s','k',')','\n'],
   [' ',' ',' ',' ','#','i','d','e','n','t','i','f','y','_','b','l','i','s','t',':',' ','{','1',',','2','3',',','4','}',' ','(','b','l','a','c','k',' ','l','i','s','t',')','\n'],
   [' ',' ',' ',' ','-',' ','d','e','v','i','c','e',':',' ','0','\n'],
   [' ',' ',' ',' ',' ',' ',' ',' ','d','i','s','a','b','l','e',':',' ','f','a','l','s','e','\n'],
   [' ',' ',' ',' ',' ',' ',' ',' ','#','d','i','s','a','b','l','e',':',' ','[','f','a','l','s','e',']','[','t','r','u','e',']','[','F','A','L','S','E',']','[','T','R','U','E',']','\n'],
   [' ',' ',' ',' ',' ',' ',' ',' ','#','p','r','i','o','r','i','t','y',':','[','t','r','a','c','e',']','[','d','e','b','u','g',']','[','i','n','f','o',']','[','w','a','r','n',']','[','e','r','r','o','r',']','[','a','l','a','r','m',']','[','f','a','t','a','l',']','\n'],
   [' ',' ',' ',' ',' ',' ',' ',' ','#','c','a','t','e','g','o','r','y',':',' ','i','d','\n'],
   [' ',' ',' ',' ',' ',' ',' ',' ','#','c','a','t','e','g','o','r','y','_','e','x','t','e','n','d',':',' ','c','o','u','n','t','\n'],
   [' ',' ',' ',' ',' ',' ',' ',' ','#','c','a','t','e','g','o','r','y','_','w','m','a','s','k',':',' ','2','5','5',' ','(','w','h','i','t','e',' ','m','a','s','k',')','\n'],
   [' ',' ',' ',' ',' ',' ',' ',' ','#','c','a','t','e','g','o','r','y','_','w','l','i','s','t',':',' ','{','2',',','3',',','4','3','}',' ','(','w','h','i','t','e',' ','l','i','s','t',')','\n'],
   [' ',' ',' ',' ',' ',' ',' ',' ','#','c','a','t','e','g','o','r','y','_','b','m','a','s','k',':',' ','2','5','5',' ','(','b','l','a','c','k',' ','m','a','s','k',')','\n'],
   [' ',' ',' ',' ',' ',' ',' ',' ','#','c','a','t','e','g','o','r','y','_','b','l','i','s','t',':',' ','{','1',',','2','3',',','4','}',' ','(','b','l','a','c','k',' ','l','i','s','t',')','\n'],
   [' ',' ',' ',' ',' ',' ',' ',' ','#','i','d','e','n','t','i','f','y',':',' ','i','d','\n'],
   [' ',' ',' ',' ',' ',' ',' ',' ','#','i','d','e','n','t','i','f','y','_','e','x','t','e','n','d',':',' ','c','o','u','n','t','\n'],
   [' ',' ',' ',' ',' ',' ',' ',' ','#','i','d','e','n','t','i','f','y','_','w','m','a','s','k',':',' ','2','5','5',' ','(','w','h','i','t','e',' ','m','a','s','k',')','\n'],
   [' ',' ',' ',' ',' ',' ',' ',' ','#','i','d','e','n','t','i','f','y','_','w','l','i','s','t',':',' ','{','2',',','3',',','4','3','}',' ','(','w','h','i','t','e',' ','l','i','s','t',')','\n'],
   [' ',' ',' ',' ',' ',' ',' ',' ','#','i','d','e','n','t','i','f','y','_','b','m','a','s','k',':',' ','2','5','5',' ','(','b','l','a','c','k',' ','m','a','s','k',')','\n'],
   [' ',' ',' ',' ',' ',' ',' ',' ','#','i','d','e','n','t','i','f','y','_','b','l','i','s','t',':',' ','{','1',',','2','3',',','4','}',' ','(','b','l','a','c','k',' ','l','i','s','t',')','\n'],
   [' ',' ',' ',' ',' ',' ',' ',' ','o','u','t','_','t','y','p','e',':',' ','f','i','l','e','\n'],
   [' ',' ',' ',' ',' ',' ',' ',' ','#','o','u','t','_','t','y','p','e',':','[','f','i','l','e',']','[','n','u','l','l',']','[','u','d','p',']','[','s','c','r','e','e','n',']','[','v','i','r','t','u','a','l',']','\n'],
   [' ',' ',' ',' ',' ',' ',' ',' ','f','i','l','e',':',' ','"','$','P','N','A','M','E','"',' ',' ','#','i','n',' ','f','i','l','e',' ','t','y','p','e',' ','i','t','\'','s',' ','l','o','g',' ','f','i','l','e',' ','n','a','m','e','\n'],
   [' ',' ',' ',' ',' ',' ',' ',' ','p','a','t','h',':',' ','.','/',' ','#','i','n',' ','f','i','l','e',' ','t','y','p','e',' ','i','t','\'','s',' ','l','o','g',' ','f','i','l','e',' ','p','a','t','h',' ',' ','\n'],
   [' ',' ',' ',' ',' ',' ',' ',' ','r','o','l','l','b','a','c','k',':',' ','4',' ','#','i','n',' ','f','i','l','e',' ','t','y','p','e',' ','i','t','\'','s',' ','t','h','i','s',' ','d','e','v','i','c','e',' ','l','o','g',' ','f','i','l','e',' ','r','o','l','l','b','a','c','k',' ','c','o','u','n','t','.',' ',' ',' ','\n'],
   [' ',' ',' ',' ',' ',' ',' ',' ','l','i','m','i','t','_','s','i','z','e',':',' ','1','0','0',' ','m',' ','#','i','n',' ','f','i','l','e',' ','t','y','p','e',' ','i','t','\'','s',' ','o','n','e',' ','l','o','g',' ','f','i','l','e',' ','l','i','m','i','t',' ','s','i','z','e',' ',' ','\n'],
   [' ',' ',' ',' ',' ',' ',' ',' ','#','s','t','u','f','f','_','u','p',':',' ','[','t','r','u','e',']','[','f','a','l','s','e',']',' ',' ','#','i','n',' ','f','i','l','e',' ','t','y','p','e',' ','i','t','\'','s',' ','\'','f','a','l','s','e','\'',' ','w','i','l','l',' ','r','o','l','l','b','a','c','k',' ','o','l','d',' ','f','i','l','e',' ','w','h','e','n',' ','r','e','o','p','e','n',' ','l','o','g','g','e','r','.',' ',' ','t','h','e',' ','\'','t','r','u','e','\'',' ','w','i','l','l',' ','a','p','p','e','n','d',' ','e','x','i','s','t',' ','l','o','g',' ','f','i','l','e',' ','s','t','i','l','l',' ','r','e','a','c','h',' ','\'','l','i','m','i','t','_','s','i','z','e','\'',' ',' ','\n'],
   [' ',' ',' ',' ',' ',' ',' ',' ','#','u','d','p','_','a','d','d','r',':',' ','[','i','p',':','p','o','r','t',']',' ',' ','#',' ','i','n',' ','u','d','p',' ','t','y','p','e',' ',' ',' ',' ',' ','\n'],
   [' ',' ',' ',' ','-',' ','d','e','v','i','c','e',':',' ','1','\n'],
   [' ',' ',' ',' ',' ',' ',' ',' ','d','i','s','a','b','l','e',':',' ','f','a','l','s','e','\n'],
   [' ',' ',' ',' ',' ',' ',' ',' ','o','u','t','_','t','y','p','e',':',' ','f','i','l','e','\n'],
   [' ',' ',' ',' ',' ',' ',' ',' ','p','r','i','o','r','i','t','y',':',' ','e','r','r','o','r','\n'],
   [' ',' ',' ',' ',' ',' ',' ',' ','f','i','l','e',':',' ','"','$','P','N','A','M','E','_','e','r','r','o','r','"','\n'],
   [' ',' ',' ',' ',' ',' ',' ',' ','r','o','l','l','b','a','c','k',':',' ','4','\n'],
   [' ',' ',' ',' ',' ',' ',' ',' ','l','i','m','i','t','_','s','i','z','e',':',' ','1','0','0',' ','m',' ','#','o','n','l','y',' ','s','u','p','p','o','r','t',' ','M',' ','b','y','t','e','\n'],
   [' ',' ',' ',' ','-',' ','d','e','v','i','c','e',':',' ','2','\n'],
   [' ',' ',' ',' ',' ',' ',' ',' ','d','i','s','a','b','l','e',':',' ','f','a','l','s','e','\n'],
   [' ',' ',' ',' ',' ',' ',' ',' ','o','u','t','_','t','y','p','e',':',' ','s','c','r','e','e','n','\n'],
   [' ',' ',' ',' ',' ',' ',' ',' ','p','r','i','o','r','i','t','y',':',' ','i','n','f','o','\n'],
   [' ','-',' ','c','h','a','n','n','e','l',':',' ','1','\n'],
   [' ',' ',' ',' ','s','y','n','c',':',' ','s','y','n','c','\n'],
   [' ',' ',' ',' ','-',' ','d','e','v','i','c','e',':',' ','0','\n'],
   [' ',' ',' ',' ',' ',' ',' ',' ','d','i','s','a','b','l','e',':',' ','t','r','u','e','\n'],
   ['\n']]

/-- /repo/bin/log.yaml. -/
def binLog : List Char := List.flatten
  [['#',' ','\xe9','\x85','\x8d','\xe8','\xa1','\xa8','\xe6','\x96','\x87','\xe4','\xbb','\xb6',' ',' ','\r','\n'],
   [' ','#','l','o','g','g','e','r','_','n','a','m','e',':',' ','\r','\n'],
   [' ','l','o','g','g','e','r','_','d','e','s','c',':',' ','1','.','1','.','4','.','1','\r','\n'],
   [' ','h','o','t','_','u','p','d','a','t','e',':',' ','t','r','u','e','\r','\n'],
   ['#',' ','0','\xe9','\x80','\x9a','\xe9','\x81','\x93','\xe4','\xb8','\xba','\xe5','\xa4','\x9a','\xe7','\xba','\xbf','\xe7','\xa8','\x8b','\xe5','\xb8','\xa6','\xe6','\x96','\x87','\xe4','\xbb','\xb6','\xe5','\x92','\x8c','\xe5','\xb1','\x8f','\xe6','\x98','\xbe','\xe8','\xbe','\x93','\xe5','\x87','\xba','\r','\n'],
   [' ','-',' ','c','h','a','n','n','e','l',':',' ','0',' ',' ','\r','\n'],
   [' ',' ',' ',' ','p','r','i','o','r','i','t','y',':',' ','i','n','f','o','\r','\n'],
   [' ',' ',' ',' ','c','a','t','e','g','o','r','y',':',' ','0','\r','\n'],
   [' ',' ',' ',' ','c','a','t','e','g','o','r','y','_','e','x','t','e','n','d',':',' ','0','\r','\n'],
   [' ',' ',' ',' ','-','d','e','v','i','c','e',':',' ','0','\r','\n'],
   [' ',' ',' ',' ',' ',' ',' ',' ','d','i','s','a','b','l','e',':',' ','f','a','l','s','e','\r','\n'],
   [' ',' ',' ',' ',' ',' ',' ',' ','o','u','t','_','t','y','p','e',':',' ','f','i','l','e','\r','\n'],
   [' ',' ',' ',' ',' ',' ',' ',' ','p','r','i','o','r','i','t','y',':',' ','i','n','f','o','\r','\n'],
   [' ',' ',' ',' ',' ',' ',' ',' ','c','a','t','e','g','o','r','y',':',' ','0','\r','\n'],
   [' ',' ',' ',' ',' ',' ',' ',' ','c','a','t','e','g','o','r','y','_','e','x','t','e','n','d',':',' ','0','\r','\n'],
   [' ',' ',' ',' ',' ',' ',' ',' ','p','a','t','h',':',' ','"','.','/','l','o','g','/','"','\r','\n'],
   [' ',' ',' ',' ',' ',' ',' ',' ','f','i','l','e',':',' ','"','$','P','N','A','M','E','_','$','Y','E','A','R','$','M','O','N','$','D','A','Y','"','\r','\n'],
   [' ',' ',' ',' ',' ',' ',' ',' ','r','o','l','l','b','a','c','k',':',' ','4','\r','\n'],
   [' ',' ',' ',' ',' ',' ',' ',' ','l','i','m','i','t','_','s','i','z','e',':',' ','1','0','0','0',' ','m',' ','#','o','n','l','y',' ','s','u','p','p','o','r','t',' ','M',' ','b','y','t','e','\r','\n'],
   [' ',' ',' ',' ','-','d','e','v','i','c','e',':',' ','1','\r','\n'],
   [' ',' ',' ',' ',' ',' ',' ',' ','d','i','s','a','b','l','e',':',' ','f','a','l','s','e','\r','\n'],
   [' ',' ',' ',' ',' ',' ',' ',' ','o','u','t','_','t','y','p','e',':',' ','s','c','r','e','e','n','\r','\n'],
   [' ',' ',' ',' ',' ',' ',' ',' ','c','a','t','e','g','o','r','y',':',' ','0','\r','\n'],
   [' ',' ',' ',' ',' ',' ',' ',' ','c','a','t','e','g','o','r','y','_','e','x','t','e','n','d',':',' ','0','\r','\n'],
   [' ','#',' ','1','\xe9','\x80','\x9a','\xe9','\x81','\x93','\xe4','\xb8','\xba','\xe5','\xa4','\x9a','\xe7','\xba','\xbf','\xe7','\xa8','\x8b','\xe4','\xb8','\x8d','\xe6','\x8c','\x82','\xe4','\xbb','\xbb','\xe4','\xbd','\x95','\xe8','\xbe','\x93','\xe5','\x87','\xba','\xe7','\xab','\xaf','\r','\n'],
   [' ','-',' ','c','h','a','n','n','e','l',':',' ','1','\r','\n'],
   ['\r','\n'],
   [' ','#',' ','2','\xe9','\x80','\x9a','\xe9','\x81','\x93','\xe4','\xb8','\xba','\xe5','\x8d','\x95','\xe7','\xba','\xbf','\xe7','\xa8','\x8b','\xe5','\x90','\x8c','\xe6','\xad','\xa5','\xe5','\x86','\x99','\xe6','\x96','\x87','\xe4','\xbb','\xb6','\r','\n'],
   [' ','-',' ','c','h','a','n','n','e','l',':',' ','2','\r','\n'],
   [' ',' ',' ',' ','s','y','n','c','_','w','r','i','t','e',':',' ','1',' ','#','o','n','l','y',' ','s','u','p','p','o','r','t',' ','s','i','n','g','l','e',' ','t','h','r','e','a','d','\r','\n'],
   [' ',' ',' ',' ','-','d','e','v','i','c','e',':',' ','0','\r','\n'],
   [' ',' ',' ',' ',' ',' ',' ',' ','d','i','s','a','b','l','e',':',' ','f','a','l','s','e','\r','\n'],
   [' ',' ',' ',' ',' ',' ',' ',' ','o','u','t','_','t','y','p','e',':',' ','f','i','l','e','\r','\n'],
   ['\r','\n'],
   [' ','#',' ','3','\xe9','\x80','\x9a','\xe9','\x81','\x93','\xe4','\xb8','\xba','\xe5','\x8d','\x95','\xe7','\xba','\xbf','\xe7','\xa8','\x8b','\xe6','\x97','\xa0','\xe8','\xbe','\x93','\xe5','\x87','\xba','\xe7','\xab','\xaf','\r','\n'],
   [' ','-',' ','c','h','a','n','n','e','l',':',' ','3','\r','\n'],
   [' ',' ',' ',' ','s','y','n','c','_','w','r','i','t','e',':',' ','1',' ','#','o','n','l','y',' ','s','u','p','p','o','r','t',' ','s','i','n','g','l','e',' ','t','h','r','e','a','d','\r','\n']]

/-- /repo/dist/include/fn-log/default_log.yaml. -/
def distDefaultLog : List Char := List.flatten
  [['\n'],
   ['#',' ','\xe5','\x9f','\xba','\xe7','\xa1','\x80','\xe8','\xaf','\xad','\xe6','\xb3','\x95',' ',' ',' ','\n'],
   ['#','#',' ','\xe7','\xbc','\xa9','\xe8','\xbf','\x9b',' ','\xe7','\x9b','\xb8','\xe5','\x90','\x8c','s','c','o','p','e','\xe7','\x9a','\x84','f','i','e','l','d','\xe9','\x9c','\x80','\xe8','\xa6','\x81','\xe4','\xbf','\x9d','\xe6','\x8c','\x81','\xe7','\xbc','\xa9','\xe8','\xbf','\x9b','\xe4','\xb8','\x80','\xe8','\x87','\xb4','\n'],
   ['#','#',' ','\xe7','\xbc','\xa9','\xe8','\xbf','\x9b',' ','\xe5','\xad','\x90','\xe5','\xb1','\x82','\xe7','\xba','\xa7','f','i','e','l','d','\xe7','\xbc','\xa9','\xe8','\xbf','\x9b','\xe5','\xa4','\xa7','\xe4','\xba','\x8e','\xe7','\x88','\xb6','\xe5','\xb1','\x82','\xe7','\xba','\xa7','f','i','e','l','d',' ',' ','\n'],
   ['\n'],
   ['#','#',' ','\xe6','\x95','\xb0','\xe7','\xbb','\x84',' ','\xe4','\xbb','\xa5','-','\xe4','\xb8','\xba','\xe5','\x89','\x8d','\xe7','\xbc','\x80',' ','\xe9','\x9c','\x80','\xe8','\xa6','\x81','\xe6','\x94','\xbe','\xe5','\x9c','\xa8','k','e','y','\xe4','\xb9','\x8b','\xe5','\x89','\x8d',' ',' ',' ','\n'],
   ['#','#',' ','\xe6','\xb3','\xa8','\xe9','\x87','\x8a',' ','\xe4','\xbb','\xbb','\xe6','\x84','\x8f','\xe8','\xa1','\x8c','\xe5','\x86','\x85','\xe8','\xaf','\xbb','\xe5','\x88','\xb0','#','\xe4','\xb9','\x8b','\xe5','\x90','\x8e','\xe4','\xbc','\x9a','\xe5','\x81','\x9c','\xe6','\xad','\xa2','\xe8','\xaf','\xa5','\xe8','\xa1','\x8c','\xe7','\x9a','\x84','\xe8','\xa7','\xa3','\xe6','\x9e','\x90','\xe6','\x93','\x8d','\xe4','\xbd','\x9c',',',' ','\xe5','\x8d','\xb3','\xe4','\xbd','\xbf','\xe4','\xbd','\x8d','\xe4','\xba','\x8e','\xe5','\xbc','\x95','\xe5','\x8f','\xb7','\xe5','\x86','\x85','.',' ',' ','\n'],
   ['#','#',' ','k','v','\xe5','\x88','\x86','\xe9','\x9a','\x94','\xe7','\xac','\xa6',' ',':',' ','\n'],
   ['#','#',' ','\xe7','\xa9','\xba','\xe7','\x99','\xbd','\xe7','\xac','\xa6',' ','\xe9','\x80','\x9a','\xe5','\xb8','\xb8','\xe8','\xaf','\xbb','\xe5','\x88','\xb0','\xe7','\xa9','\xba','\xe7','\x99','\xbd','\xe7','\xac','\xa6','\xe4','\xbc','\x9a','\xe8','\x87','\xaa','\xe5','\x8a','\xa8','\xe8','\xb7','\xb3','\xe8','\xbf','\x87',',',' ','\xe4','\xbd','\x86','\xe4','\xb8','\x8d','\xe5','\x8c','\x85','\xe6','\x8b','\xac','\xe5','\xb0','\xbe','\xe9','\x9a','\x8f','\xe5','\x9c','\xa8','\xe5','\x80','\xbc','\xe4','\xb8','\xad','\xe9','\x97','\xb4','\xe7','\x9a','\x84','\xe7','\xa9','\xba','\xe7','\x99','\xbd','\xe7','\xac','\xa6',' ',' ','\n'],
   ['#','#',' ','k','e','y',' ','\xe5','\xbf','\x85','\xe9','\xa1','\xbb','\xe4','\xb8','\xba','\xe5','\xb0','\x8f','\xe5','\x86','\x99','\xe5','\xad','\x97','\xe6','\xaf','\x8d','\xe5','\x92','\x8c','\xe4','\xb8','\x8b','\xe5','\x88','\x92','\xe7','\xba','\xbf',' ','\xe4','\xb8','\x8d','\xe5','\x85','\x81','\xe8','\xae','\xb8','\xe5','\x85','\xb6','\xe4','\xbb','\x96','\xe5','\x80','\xbc',' ',' ','\n'],
   ['#','#',' ','\xe5','\x80','\xbc',' ','\xe4','\xbc','\x9a','\xe8','\x87','\xaa','\xe5','\x8a','\xa8','\xe8','\xa3','\x81','\xe5','\x88','\x87','\xe5','\x89','\x8d','\xe7','\xbc','\x80','\xe7','\xa9','\xba','\xe7','\x99','\xbd',' ',' ','\n'],
   ['#','#',' ','\xe5','\x80','\xbc',' ','\xe7','\x9a','\x84','\xe8','\xa1','\x8c','\xe5','\xb0','\xbe','\xe8','\xbe','\xb9','\xe7','\x95','\x8c','\xe6','\x9c','\x89','[','"','#','\\','r','\\','n','\\','0',']','\n'],
   ['#','#',' ','\xe5','\x80','\xbc',' ','\xe7','\x9a','\x84','\xe5','\x86','\x85','\xe5','\xae','\xb9','\xe5','\x81','\x9a','\xe4','\xba','\x86','\xe7','\xba','\xa6','\xe6','\x9d','\x9f',' ','\xe8','\x8c','\x83','\xe5','\x9b','\xb4','\xe4','\xb8','\xba',':',' ','\xe5','\xad','\x97','\xe7','\xac','\xa6','\xe6','\x95','\xb0','\xe5','\xad','\x97','[','a','-','z','A','-','Z','0','-','9',']',' ',' ','[','_','-',':','/','.',',','$','~','%',']',' ',' ',' ','\n'],
   ['#','#',' ','\xe5','\x80','\xbc',' ','\xe7','\x9a','\x84','\xe5','\x86','\x85','\xe5','\xae','\xb9','\xe9','\x9c','\x80','\xe6','\xb1','\x82','\xe4','\xb8','\x8a','\xe4','\xb8','\xba',' ','\xe6','\x96','\x87','\xe4','\xbb','\xb6','\xe5','\x90','\x8d','\xe5','\x92','\x8c','\xe8','\xb7','\xaf','\xe5','\xbe','\x84',' ','\xe6','\x95','\xb0','\xe5','\xad','\x97',' ','\xe5','\xad','\x97','\xe7','\xac','\xa6',' ','\xe5','\x9b','\xa0','\xe6','\xad','\xa4','\xe9','\x80','\x9a','\xe8','\xbf','\x87','\xe7','\xba','\xa6','\xe6','\x9d','\x9f','\xe5','\x8f','\xaf','\xe4','\xbb','\xa5','\xe5','\x87','\x8f','\xe5','\xb0','\x91','\xe4','\xb8','\x8d','\xe5','\xbf','\x85','\xe8','\xa6','\x81','\xe7','\x9a','\x84','\xe9','\x85','\x8d','\xe7','\xbd','\xae','\xe9','\x97','\xae','\xe9','\xa2','\x98',' ',' ','\n'],
   ['\n'],
   ['#',' ','\xe9','\x94','\x99','\xe8','\xaf','\xaf','\xe7','\xa0','\x81',' ',' ','\xe4','\xbb','\xa3','\xe7','\xa0','\x81','\xe4','\xb8','\xad','\xe6','\x90','\x9c','\xe7','\xb4','\xa2','P','a','r','s','e','E','r','r','o','r','C','o','d','e',',',' ','E','r','r','N','o','\xe6','\x9f','\xa5','\xe6','\x89','\xbe','\xe5','\xaf','\xb9','\xe5','\xba','\x94','\xe8','\xaf','\xb4','\xe6','\x98','\x8e','.',' ','\n'],
   ['\n'],
   ['#',' ','\xe5','\xae','\x8f','\xe8','\xaf','\xad','\xe4','\xb9','\x89',' ','\xe5','\xbd','\x93','\xe5','\x89','\x8d','\xe5','\xae','\x9e','\xe7','\x8e','\xb0','\xe6','\x96','\xb9','\xe5','\xbc','\x8f',' ','\xe5','\x8e','\x9f','\xe5','\x9c','\xb0','\xe6','\x9b','\xbf','\xe6','\x8d','\xa2','(','i','n','p','l','a','c','e',')','*','*','\xe9','\x9a','\x8f','\xe5','\x90','\x8e','*','*','\xe7','\x9a','\x84','\xe6','\x89','\x80','\xe6','\x9c','\x89','\xe5','\xad','\x97','\xe7','\xac','\xa6','\xe4','\xb8','\xb2','\xe5','\x86','\x85','\xe5','\xae','\xb9',' ',' ','\n'],
   ['#',' ','\xe5','\xae','\x8f','\xe8','\xaf','\xad','\xe4','\xb9','\x89',' ','\xe8','\xa6','\x81','\xe6','\xb3','\xa8','\xe6','\x84','\x8f','\xe6','\x9b','\xbf','\xe6','\x8d','\xa2','\xe5','\x90','\x8e','\xe7','\x9a','\x84','\xe5','\x86','\x85','\xe5','\xae','\xb9','\xe4','\xb8','\x8d','\xe8','\x83','\xbd','\xe9','\x95','\xbf','\xe4','\xba','\x8e','\xe5','\x8e','\x9f','\xe6','\x9c','\x89','\xe5','\x86','\x85','\xe5','\xae','\xb9',',',' ','\xe5','\x8f','\xaf','\xe4','\xbb','\xa5','\xe9','\x81','\xbf','\xe5','\x85','\x8d','\xe5','\x86','\x85','\xe5','\xad','\x98','\xe9','\x87','\x8d','\xe5','\x88','\x86','\xe9','\x85','\x8d','\xe5','\xbc','\x80','\xe9','\x94','\x80','.','\n'],
   ['#',' ','\xe5','\xae','\x8f','\xe8','\xaf','\xad','\xe4','\xb9','\x89',' ','\xe8','\xa6','\x81','\xe6','\xb3','\xa8','\xe6','\x84','\x8f','\xe4','\xb8','\x8d','\xe8','\xa6','\x81','\xe6','\x9b','\xbf','\xe6','\x8d','\xa2','\xe6','\x8e','\x89','\xe6','\xad','\xa3','\xe5','\xb8','\xb8','\xe7','\x9a','\x84','\xe5','\xad','\x97','\xe7','\xac','\xa6','\xe4','\xb8','\xb2',',',' ','\xe5','\x8c','\x85','\xe5','\x90','\xab','\xe5','\x80','\xbc','\xe4','\xb8','\xad','\xe7','\x9a','\x84','\xe5','\x86','\x85','\xe5','\xae','\xb9',' ',' ','\n'],
   [' ','\n'],
   ['\n'],
   ['#',' ','\xe5','\x8f','\x98','\xe9','\x87','\x8f',' ','\xe5','\x92','\x8c','\xe5','\xae','\x8f','\xe6','\x9b','\xbf','\xe6','\x8d','\xa2','\xe7','\xb1','\xbb','\xe4','\xbc','\xbc',',',' ','\xe4','\xb8','\x8d','\xe5','\x90','\x8c','\xe7','\x82','\xb9','\xe5','\x9c','\xa8','\xe4','\xba','\x8e','\xe6','\x89','\xa7','\xe8','\xa1','\x8c','\xe6','\x9b','\xbf','\xe6','\x8d','\xa2','\xe5','\x8a','\xa8','\xe4','\xbd','\x9c','\xe6','\x97','\xb6','\xe5','\x80','\x99','\xe4','\xbc','\x9a','\xe5','\xa2','\x9e','\xe5','\x8a','\xa0','\xe5','\x89','\x8d','\xe7','\xbc','\x80','$','\xe8','\xbf','\x9b','\xe8','\xa1','\x8c','\xe6','\x9b','\xbf','\xe6','\x8d','\xa2',',',' ','\xe5','\xb9','\xb6','\xe5','\x8c','\x85','\xe8','\xa3','\xb9','{','}','\xe9','\x87','\x8d','\xe5','\xa4','\x8d','\xe6','\x89','\xa7','\xe8','\xa1','\x8c','\xe4','\xb8','\x80','\xe6','\xac','\xa1','.',' ',' ',' ','\xe4','\xbe','\x8b','\xe5','\xa6','\x82','v','a','r',':','{','t','a','g','0','=','1','}',' ',' ','\xe4','\xbc','\x9a','\xe6','\x9b','\xbf','\xe6','\x8d','\xa2','\xe6','\x8e','\x89','$','{','t','a','g','0','}',' ','\xe5','\x92','\x8c',' ','$','t','a','g','0',' ',' ','\n'],
   ['\n'],
   ['#',' ','\xe5','\xae','\x8f',',','\xe5','\x8f','\x98','\xe9','\x87','\x8f',' ','\xe5','\x9d','\x87','\xe4','\xb8','\x8d','\xe8','\x83','\xbd','\xe9','\x87','\x8d','\xe5','\xa4','\x8d','\xe5','\xae','\x9a','\xe4','\xb9','\x89',' ','(','\xe6','\x9b','\xbf','\xe6','\x8d','\xa2','\xe6','\x97','\xa0','\xe6','\xb3','\x95','\xe5','\x86','\x8d','\xe6','\x9b','\xbf','\xe6','\x8d','\xa2',')',' ',' ',' ','\n'],
   ['#',' ','\xe5','\xae','\x8f',',','\xe5','\x8f','\x98','\xe9','\x87','\x8f',' ','\xe9','\x80','\x9a','\xe5','\xb8','\xb8','\xe4','\xb8','\xba','\xe7','\xac','\xa6','\xe5','\x8f','\xb7','\xe5','\x90','\x8d','+','\xe5','\xad','\x97','\xe9','\x9d','\xa2','\xe9','\x87','\x8f',' ','\xe7','\x94','\xa8','\xe6','\x9d','\xa5','\xe5','\xae','\x9a','\xe4','\xb9','\x89','\xe5','\x9c','\xa8','\xe9','\x9a','\x8f','\xe5','\x90','\x8e','\xe9','\x87','\x8d','\xe5','\xa4','\x8d','\xe4','\xbd','\xbf','\xe7','\x94','\xa8','\xe7','\x9a','\x84','\xe6','\x95','\xb0','\xe5','\xad','\x97','\xe7','\xb1','\xbb','\xe7','\xbc','\x96','\xe5','\x8f','\xb7',' ','c','a','t','e','g','o','r','y',',',' ','i','n','d','e','n','t','i','f','y',',',' ','m','a','s','k','\xe7','\xad','\x89',' ',' ','\n'],
   ['\n'],
   ['\n'],
   ['\n'],
   ['-',' ','d','e','f','i','n','e',':',' ','L','I','S','T','_','_','_','_','_','_',' ','0',',','1',',','2',',','3',' ',' ',' ','#',' ','u','s','e','d',' ','l','i','k','e',' ','c','-','s','t','y','l','e',';',' ',' ','w','a','r','n',':',' ','d','e','f',' ','n','a','m','e',' ','l','e','n',' ','m','u','s','t',' ','b','i','g','g','e','r',' ','t','h','a','n',' ','c','o','n','t','e','n','t','.',' ',' ',' ',' ','\n'],
   ['-',' ','d','e','f',':',' ','E','M','P','T','Y','_','_','_','_','_','_',' ',' ',' ',' ','\n'],
   ['\n'],
   ['-',' ','v','a','r',':',' ','i','d',' ','=',' ','2','3','4','\n'],
   ['-',' ','v','a','r',':',' ','i','d','0',' ','=',' ','0',',',' ','i','d','1',' ','=','1',' ',' ',' ',' ','#',' ','u','s','e',' ','v','a','r',' ','$','i','d','0',' ',' ','o','r',' ','$','{','i','d','0','}',' ',' ','\n'],
   ['-',' ','v','a','r',':',' ','{','k','e','y','=','"','s','s','s','"',',',' ','v','a','l','=','9','9','9','}',' ',' ',' ','\n'],
   ['\n'],
   ['\n'],
   ['\n'],
   ['#',' ','-',' ','s','h','m','_','k','e','y',':',' ','3','3','3','2','1','2','3','1','\n'],
   ['#',' ','-',' ','h','o','t','_','u','p','d','a','t','e',':','[','t','r','u','e',']','[','f','a','l','s','e',']','\n'],
   ['#',' ','-',' ','l','o','g','g','e','r','_','n','a','m','e',':',' ','s','t','r','i','n','g',' ',' ','#',' ','l','o','g',' ','c','o','n','t','e','n','t',' ','p','r','e','f','i','x',' ','"','L','O','G','_','P','R','E','F','I','X','_','N','A','M','E','"',' ','\n'],
   ['#',' ','-',' ','l','o','g','g','e','r','_','d','e','s','c',':',' ','s','t','r','i','n','g',' ',' ','#',' ','l','o','g',' ','c','o','n','t','e','n','t',' ','p','r','e','f','i','x',' ','"','L','O','G','_','P','R','E','F','I','X','_','D','E','S','C','"',' ','\n'],
   [' ','-',' ','c','h','a','n','n','e','l',':',' ','0','\n'],
   [' ',' ',' ',' ','s','y','n','c',':',' ','a','s','y','n','c',' ',' ','\n'],
   [' ',' ',' ',' ','#','s','y','n','c',':',' ','[','a','s','y','n','c',']','[','s','y','n','c',']','[','A','S','Y','N','C',']','[','S','Y','N','C',']','\n'],
   [' ',' ',' ',' ','#','p','r','i','o','r','i','t','y',':','[','t','r','a','c','e',']','[','d','e','b','u','g',']','[','i','n','f','o',']','[','w','a','r','n',']','[','e','r','r','o','r',']','[','a','l','a','r','m',']','[','f','a','t','a','l',']','\n'],
   [' ',' ',' ',' ','#','c','a','t','e','g','o','r','y',':',' ','i','d','\n'],
   [' ',' ',' ',' ','#','c','a','t','e','g','o','r','y','_','e','x','t','e','n','d',':',' ','c','o','u','n','t','\n'],
   [' ',' ',' ',' ','#','c','a','t','e','g','o','r','y','_','w','m','a','s','k',':',' ','2','5','5',' ','(','w','h','i','t','e',' ','m','a','s','k',')','\n'],
   [' ',' ',' ',' ','#','c','a','t','e','g','o','r','y','_','w','l','i','s','t',':',' ','{','2',',','3',',','4','3','}',' ','(','w','h','i','t','e',' ','l','i','s','t',')','\n'],
   [' ',' ',' ',' ','#','c','a','t','e','g','o','r','y','_','b','m','a','s','k',':',' ','2','5','5',' ','(','b','l','a','c','k',' ','m','a','s','k',')','\n'],
   [' ',' ',' ',' ','#','c','a','t','e','g','o','r','y','_','b','l','i','s','t',':',' ','{','1',',','2','3',',','4','}',' ','(','b','l','a','c','k',' ','l','i','s','t',')','\n'],
   [' ',' ',' ',' ','#','i','d','e','n','t','i','f','y',':',' ','i','d','\n'],
   [' ',' ',' ',' ','#','i','d','e','n','t','i','f','y','_','e','x','t','e','n','d',':',' ','c','o','u','n','t','\n'],
   [' ',' ',' ',' ','#','i','d','e','n','t','i','f','y','_','w','m','a','s','k',':',' ','2','5','5',' ','(','w','h','i','t','e',' ','m','a','s','k',')','\n'],
   [' ',' ',' ',' ','#','i','d','e','n','t','i','f','y','_','w','l','i','s','t',':',' ','{','2',',','3',',','4','3','}',' ','(','w','h','i','t','e',' ','l','i','s','t',')','\n'],
   [' ',' ',' ',' ','#','i','d','e','n','t','i','f','y','_','b','m','a','s','k',':',' ','2','5','5',' ','(','b','l','a','c','k',' ','m','a','s','k',')','\n'],
   [' ',' ',' ',' ','#','i','d','e','n','t','i','f','y','_','b','l','i','s','t',':',' ','{','1',',','2','3',',','4','}',' ','(','b','l','a','c','k',' ','l','i','s','t',')','\n'],
   [' ',' ',' ',' ','-',' ','d','e','v','i','c','e',':',' ','0','\n'],
   [' ',' ',' ',' ',' ',' ',' ',' ','d','i','s','a','b','l','e',':',' ','f','a','l','s','e','\n'],
   [' ',' ',' ',' ',' ',' ',' ',' ','#','d','i','s','a','b','l','e',':',' ','[','f','a','l','s','e',']','[','t','r','u','e',']','[','F','A','L','S','E',']','[','T','R','U','E',']','\n'],
   [' ',' ',' ',' ',' ',' ',' ',' ','#','p','r','i','o','r','i','t','y',':','[','t','r','a','c','e',']','[','d','e','b','u','g',']','[','i','n','f','o',']','[','w','a','r','n',']','[','e','r','r','o','r',']','[','a','l','a','r','m',']','[','f','a','t','a','l',']','\n'],
   [' ',' ',' ',' ',' ',' ',' ',' ','#','c','a','t','e','g','o','r','y',':',' ','i','d','\n'],
   [' ',' ',' ',' ',' ',' ',' ',' ','#','c','a','t','e','g','o','r','y','_','e','x','t','e','n','d',':',' ','c','o','u','n','t','\n'],
   [' ',' ',' ',' ',' ',' ',' ',' ','#','c','a','t','e','g','o','r','y','_','w','m','a','s','k',':',' ','2','5','5',' ','(','w','h','i','t','e',' ','m','a','s','k',')','\n'],
   [' ',' ',' ',' ',' ',' ',' ',' ','#','c','a','t','e','g','o','r','y','_','w','l','i','s','t',':',' ','{','2','-','3',',','4','3','}',' ','(','w','h','i','t','e',' ','l','i','s','t',')','\n'],
   [' ',' ',' ',' ',' ',' ',' ',' ','#','c','a','t','e','g','o','r','y','_','b','m','a','s','k',':',' ','2','5','5',' ','(','b','l','a','c','k',' ','m','a','s','k',')','\n'],
   [' ',' ',' ',' ',' ',' ',' ',' ','#','c','a','t','e','g','o','r','y','_','b','l','i','s','t',':',' ','{','1',',','2','3',',','4','-','5','}',' ','(','b','l','a','c','k',' ','l','i','s','t',')','\n'],
   [' ',' ',' ',' ',' ',' ',' ',' ','#','i','d','e','n','t','i','f','y',':',' ','i','d','\n'],
   [' ',' ',' ',' ',' ',' ',' ',' ','#','i','d','e','n','t','i','f','y','_','e','x','t','e','n','d',':',' ','c','o','u','n','t','\n'],
   [' ',' ',' ',' ',' ',' ',' ',' ','#','i','d','e','n','t','i','f','y','_','w','m','a','s','k',':',' ','2','5','5',' ','(','w','h','i','t','e',' ','m','a','s','k',')','\n'],
   [' ',' ',' ',' ',' ',' ',' ',' ','#','i','d','e','n','t','i','f','y','_','w','l','i','s','t',':',' ','{','2','-','3',',','4','3','}',' ','(','w','h','i','t','e',' ','l','i','s','t',')','\n'],
   [' ',' ',' ',' ',' ',' ',' ',' ','#','i','d','e','n','t','i','f','y','_','b','m','a','s','k',':',' ','2','5','5',' ','(','b','l','a','c','k',' ','m','a','s','k',')','\n'],
   [' ',' ',' ',' ',' ',' ',' ',' ','#','i','d','e','n','t','i','f','y','_','b','l','i','s','t',':',' ','{','1',',','2','3',',','4','}',' ','(','b','l','a','c','k',' ','l','i','s','t',')','\n'],
   [' ',' ',' ',' ',' ',' ',' ',' ','o','u','t','_','t','y','p','e',':',' ','f','i','l','e','\n'],
   [' ',' ',' ',' ',' ',' ',' ',' ','#','o','u','t','_','t','y','p','e',':','[','f','i','l','e',']','[','n','u','l','l',']','[','u','d','p',']','[','s','c','r','e','e','n',']','[','v','i','r','t','u','a','l',']','\n'],
   [' ',' ',' ',' ',' ',' ',' ',' ','f','i','l','e',':',' ','"','$','P','N','A','M','E','"',' ',' ','#','i','n',' ','f','i','l','e',' ','t','y','p','e',' ','i','t','\'','s',' ','l','o','g',' ','f','i','l','e',' ','n','a','m','e','\n'],
   [' ',' ',' ',' ',' ',' ',' ',' ','p','a','t','h',':',' ','.','/',' ','#','i','n',' ','f','i','l','e',' ','t','y','p','e',' ','i','t','\'','s',' ','l','o','g',' ','f','i','l','e',' ','p','a','t','h',' ',' ','\n'],
   [' ',' ',' ',' ',' ',' ',' ',' ','r','o','l','l','b','a','c','k',':',' ','4',' ','#','i','n',' ','f','i','l','e',' ','t','y','p','e',' ','i','t','\'','s',' ','t','h','i','s',' ','d','e','v','i','c','e',' ','l','o','g',' ','f','i','l','e',' ','r','o','l','l','b','a','c','k',' ','c','o','u','n','t','.',' ',' ',' ','\n'],
   [' ',' ',' ',' ',' ',' ',' ',' ','l','i','m','i','t','_','s','i','z','e',':',' ','1','0','0',' ','m',' ','#','i','n',' ','f','i','l','e',' ','t','y','p','e',' ','i','t','\'','s',' ','o','n','e',' ','l','o','g',' ','f','i','l','e',' ','l','i','m','i','t',' ','s','i','z','e',' ',' ','\n'],
   [' ',' ',' ',' ',' ',' ',' ',' ','#','s','t','u','f','f','_','u','p',':',' ','[','t','r','u','e',']','[','f','a','l','s','e',']',' ',' ','#','i','n',' ','f','i','l','e',' ','t','y','p','e',' ','i','t','\'','s',' ','\'','f','a','l','s','e','\'',' ','w','i','l','l',' ','r','o','l','l','b','a','c','k',' ','o','l','d',' ','f','i','l','e',' ','w','h','e','n',' ','r','e','o','p','e','n',' ','l','o','g','g','e','r','.',' ',' ','t','h','e',' ','\'','t','r','u','e','\'',' ','w','i','l','l',' ','a','p','p','e','n','d',' ','e','x','i','s','t',' ','l','o','g',' ','f','i','l','e',' ','s','t','i','l','l',' ','r','e','a','c','h',' ','\'','l','i','m','i','t','_','s','i','z','e','\'',' ',' ','\n'],
   [' ',' ',' ',' ',' ',' ',' ',' ','#','u','d','p','_','a','d','d','r',':',' ','[','i','p',':','p','o','r','t',']',' ',' ','#',' ','i','n',' ','u','d','p',' ','t','y','p','e',' ',' ',' ',' ',' ','\n'],
   [' ',' ',' ',' ','-',' ','d','e','v','i','c','e',':',' ','1','\n'],
   [' ',' ',' ',' ',' ',' ',' ',' ','d','i','s','a','b','l','e',':',' ','f','a','l','s','e','\n'],
   [' ',' ',' ',' ',' ',' ',' ',' ','o','u','t','_','t','y','p','e',':',' ','f','i','l','e','\n'],
   [' ',' ',' ',' ',' ',' ',' ',' ','p','r','i','o','r','i','t','y',':',' ','e','r','r','o','r','\n'],
   [' ',' ',' ',' ',' ',' ',' ',' ','f','i','l','e',':',' ','"','$','P','N','A','M','E','_','e','r','r','o','r','"','\n'],
   [' ',' ',' ',' ',' ',' ',' ',' ','r','o','l','l','b','a','c','k',':',' ','4','\n'],
   [' ',' ',' ',' ',' ',' ',' ',' ','l','i','m','i','t','_','s','i','z','e',':',' ','1','0','0',' ','m',' ','#','o','n','l','y',' ','s','u','p','p','o','r','t',' ','M',' ','b','y','t','e','\n'],
   [' ',' ',' ',' ','-',' ','d','e','v','i','c','e',':',' ','2','\n'],
   [' ',' ',' ',' ',' ',' ',' ',' ','d','i','s','a','b','l','e',':',' ','f','a','l','s','e','\n'],
   [' ',' ',' ',' ',' ',' ',' ',' ','o','u','t','_','t','y','p','e',':',' ','s','c','r','e','e','n','\n'],
   [' ',' ',' ',' ',' ',' ',' ',' ','p','r','i','o','r','i','t','y',':',' ','i','n','f','o','\n'],
   [' ','-',' ','c','h','a','n','n','e','l',':',' ','1','\n'],
   [' ',' ',' ',' ','s','y','n','c',':',' ','s','y','n','c','\n'],
   [' ',' ',' ',' ','-',' ','d','e','v','i','c','e',':',' ','0','\n'],
   [' ',' ',' ',' ',' ',' ',' ',' ','d','i','s','a','b','l','e',':',' ','f','a','l','s','e','\n'],
   [' ',' ',' ',' ',' ',' ',' ',' ','o','u','t','_','t','y','p','e',':',' ','f','i','l','e','\n'],
   [' ',' ',' ',' ',' ',' ',' ',' ','f','i','l','e',':',' ','"','$','P','N','A','M','E','_','s','y','n','c','"','\n'],
   [' ',' ',' ',' ',' ',' ',' ',' ','r','o','l','l','b','a','c','k',':',' ','4','\n'],
   [' ',' ',' ',' ',' ',' ',' ',' ','l','i','m','i','t','_','s','i','z','e',':',' ','1','0','0',' ','m',' ','#','o','n','l','y',' ','s','u','p','p','o','r','t',' ','M',' ','b','y','t','e','\n'],
   [' ',' ',' ',' ','-',' ','d','e','v','i','c','e',':',' ','1','\n'],
   [' ',' ',' ',' ',' ',' ',' ',' ','d','i','s','a','b','l','e',':',' ','f','a','l','s','e','\n'],
   [' ',' ',' ',' ',' ',' ',' ',' ','o','u','t','_','t','y','p','e',':',' ','f','i','l','e','\n'],
   [' ',' ',' ',' ',' ',' ',' ',' ','p','r','i','o','r','i','t','y',':',' ','i','n','f','o','\n'],
   [' ',' ',' ',' ',' ',' ',' ',' ','f','i','l','e',':',' ','"','$','P','N','A','M','E','_','s','y','n','c','_','i','n','f','o','"','\n'],
   [' ',' ',' ',' ',' ',' ',' ',' ','r','o','l','l','b','a','c','k',':',' ','4','\n'],
   [' ',' ',' ',' ',' ',' ',' ',' ','l','i','m','i','t','_','s','i','z','e',':',' ','1','0','0',' ','m',' ','#','o','n','l','y',' ','s','u','p','p','o','r','t',' ','M',' ','b','y','t','e','\n'],
   [' ',' ',' ',' ','-',' ','d','e','v','i','c','e',':',' ','2','\n'],
   [' ',' ',' ',' ',' ',' ',' ',' ','d','i','s','a','b','l','e',':',' ','f','a','l','s','e','\n'],
   [' ',' ',' ',' ',' ',' ',' ',' ','o','u','t','_','t','y','p','e',':',' ','s','c','r','e','e','n','\n'],
   [' ',' ',' ',' ',' ',' ',' ',' ','p','r','i','o','r','i','t','y',':',' ','i','n','f','o',' ','\n'],
   ['\n']]

end FNLog
