import Verif.Spec.History
/-
  Concrete storages and histories for the examples beside the theorems.
-/
namespace Semnet.Sample
open Spec

/-- a storage without a node 0; `Connect` consumes one identifier -/
def cfgA : Cfg := ⟨1, false, .ignore, fun _ _ l => l, fun _ _ _ => .refl _⟩
/-- a storage with a node 0 that lists the earliest edge first -/
def cfgB : Cfg := ⟨0, true, .ignore, fun _ _ l => l.reverse, fun _ _ l => l.reverse_perm⟩

def call (c : Call) : Event := .call c Go.noFault

/-- a story, a second remark on its fact, a call that fails, a reopening, a story whose call refers to
    earlier words, a query -/
def es : List Event :=
  [call (.createStory (bytes "ab") (bytes "c")), call (.addRemark 0 (bytes "d a")),
   call (.createStory (bytes "a") (bytes "")), .reopen, call (.createStory (bytes "ba") (bytes "c")),
   call (.query 1 .getFirstFact)]

/-- with facts and child stories, for storages with a node 0 -/
def esB : List Event :=
  [call (.createStory (bytes "ab") (bytes "c")), call (.addFact 0 (bytes "b") (bytes "d")),
   call (.addChild 1 (bytes "c") (bytes "a")), call (.addRemark 2 (bytes "b"))]

def fuel : Nat := 40

theorem calmA : Calm cfgA fuel es :=
  ⟨rfl, ⟨by decide, by decide +kernel⟩, by simp [es, call, Event.Calm]⟩
theorem calmB : Calm cfgB fuel esB :=
  ⟨rfl, ⟨by decide, by decide +kernel⟩, by simp [esB, call, Event.Calm]⟩

/-- did the call succeed? -/
def succeeds {α : Type} : Out α × World → Bool
  | (.ok _, _) => true
  | _ => false

/-- the state after `es`, computed -/
def stA : State :=
  ⟨⟨⟨309, [304, 303, 302, 300, 299, 298, 297, 295, 293, 290, 288, 285, 284, 283, 281, 278, 277, 276, 274,
   271, 270, 269, 267, 264, 263, 262, 260, 257, 256, 255, 253, 252, 251, 250, 248, 245, 244, 243, 241,
   238, 237, 236, 234, 233, 232, 231, 229, 226, 223, 221, 218, 217, 216, 214, 211, 210, 209, 207, 204,
   203, 202, 200, 197, 196, 195, 193, 190, 189, 188, 186, 183, 182, 181, 179, 176, 175, 174, 172, 169,
   168, 167, 165, 162, 161, 160, 158, 155, 154, 153, 151, 150, 149, 148, 146, 141, 140, 139, 137, 136,
   135, 134, 132, 130, 127, 125, 122, 121, 120, 118, 115, 114, 113, 111, 108, 107, 106, 104, 101, 100, 99,
   97, 94, 93, 92, 90, 87, 86, 85, 83, 80, 79, 78, 76, 73, 72, 71, 69, 66, 65, 64, 62, 59, 58, 57, 55, 52,
   51, 50, 48, 45, 44, 43, 41, 38, 37, 36, 34, 31, 30, 29, 27, 24, 23, 22, 20, 19, 18, 16, 14, 13, 12, 11,
   9, 8, 7, 6, 5, 4, 3, 2, 1], [(297, 252), (252, 297), (302, 299), (299, 302), (300, 8), (295, 7), (293,
   250), (290, 285), (271, 290), (288, 5), (278, 283), (283, 278), (281, 4), (108, 276), (276, 108), (274,
   3), (264, 269), (269, 264), (267, 4), (256, 263), (262, 66), (260, 3), (87, 255), (255, 87), (253, 3),
   (248, 6), (238, 243), (243, 238), (241, 4), (66, 236), (236, 66), (234, 3), (229, 6), (150, 134), (226,
   148), (223, 218), (169, 223), (221, 5), (203, 217), (216, 211), (214, 4), (66, 209), (209, 66), (207,
   3), (197, 202), (202, 197), (200, 4), (190, 195), (195, 190), (193, 3), (182, 189), (188, 18), (186,
   2), (175, 182), (181, 18), (179, 2), (44, 175), (174, 19), (172, 2), (162, 167), (167, 162), (165, 4),
   (154, 161), (160, 87), (158, 3), (66, 153), (153, 66), (151, 3), (146, 6), (134, 13), (13, 134), (139,
   136), (136, 139), (137, 8), (132, 7), (130, 11), (127, 122), (101, 127), (125, 5), (115, 120), (120,
   115), (118, 4), (108, 113), (113, 108), (111, 3), (79, 107), (106, 19), (104, 2), (94, 99), (99, 94),
   (97, 4), (72, 93), (92, 87), (90, 3), (79, 86), (85, 18), (83, 2), (51, 79), (78, 19), (76, 2), (66,
   71), (71, 66), (69, 3), (58, 65), (64, 19), (62, 2), (51, 58), (57, 18), (55, 2), (44, 51), (50, 18),
   (48, 2), (37, 44), (43, 18), (41, 2), (30, 37), (36, 18), (34, 2), (23, 30), (29, 19), (27, 2), (19,
   22), (22, 19), (20, 2), (16, 1), (14, 1), (9, 6)], [(303, 304), (302, 303), (300, 302), (298, 299),
   (297, 298), (295, 297), (290, 293), (288, 290), (284, 285), (283, 284), (281, 283), (277, 278), (276,
   277), (274, 276), (270, 271), (269, 270), (267, 269), (263, 264), (262, 263), (260, 262), (256, 257),
   (255, 256), (253, 255), (251, 252), (250, 251), (248, 250), (244, 245), (243, 244), (241, 243), (237,
   238), (236, 237), (234, 236), (232, 233), (231, 232), (229, 231), (223, 226), (221, 223), (217, 218),
   (216, 217), (214, 216), (210, 211), (209, 210), (207, 209), (203, 204), (202, 203), (200, 202), (196,
   197), (195, 196), (193, 195), (189, 190), (188, 189), (186, 188), (182, 183), (181, 182), (179, 181),
   (175, 176), (174, 175), (172, 174), (168, 169), (167, 168), (165, 167), (161, 162), (160, 161), (158,
   160), (154, 155), (153, 154), (151, 153), (149, 150), (148, 149), (146, 148), (140, 141), (139, 140),
   (137, 139), (135, 136), (134, 135), (132, 134), (127, 130), (125, 127), (121, 122), (120, 121), (118,
   120), (114, 115), (113, 114), (111, 113), (107, 108), (106, 107), (104, 106), (100, 101), (99, 100),
   (97, 99), (93, 94), (92, 93), (90, 92), (86, 87), (85, 86), (83, 85), (79, 80), (78, 79), (76, 78),
   (72, 73), (71, 72), (69, 71), (65, 66), (64, 65), (62, 64), (58, 59), (57, 58), (55, 57), (51, 52),
   (50, 51), (48, 50), (44, 45), (43, 44), (41, 43), (37, 38), (36, 37), (34, 36), (30, 31), (29, 30),
   (27, 29), (23, 24), (22, 23), (20, 22), (16, 19), (14, 18), (12, 13), (11, 12), (9, 11), (7, 8), (6,
   7), (5, 6), (4, 5), (3, 4), (2, 3), (1, 2)]⟩, ⟨true, ⟨false, 14, 18, true⟩, ⟨true, 16, 19, true⟩⟩⟩, [⟨⟨9, 11, 12,
   13⟩, [97, 98], [99], some 0⟩, ⟨⟨146, 148, 149, 150⟩, [97, 98], [100, 32, 97], some 0⟩, ⟨⟨248, 250, 251,
   252⟩, [98, 97], [99], some 2⟩]⟩

/-- the state after `esB`, computed -/
def stB : State :=
  ⟨⟨⟨181, [180, 179, 178, 177, 176, 175, 174, 173, 172, 171, 170, 169, 168, 167, 166, 165, 164, 163, 162,
   161, 160, 159, 158, 157, 156, 155, 154, 153, 152, 151, 150, 149, 148, 147, 146, 145, 144, 143, 142,
   141, 140, 139, 138, 137, 136, 135, 134, 133, 132, 131, 130, 129, 128, 127, 126, 125, 124, 123, 122,
   121, 120, 119, 118, 117, 116, 115, 114, 113, 112, 111, 110, 109, 108, 107, 106, 105, 104, 103, 102,
   101, 100, 99, 98, 97, 96, 95, 94, 93, 92, 91, 90, 89, 88, 87, 86, 85, 84, 83, 82, 81, 80, 79, 78, 77,
   76, 75, 74, 73, 72, 71, 70, 69, 68, 67, 66, 65, 64, 63, 62, 61, 60, 59, 58, 57, 56, 55, 54, 53, 52, 51,
   50, 49, 48, 47, 46, 45, 44, 43, 42, 41, 40, 39, 38, 37, 36, 35, 34, 33, 32, 31, 30, 29, 28, 27, 26, 25,
   24, 23, 22, 21, 20, 19, 18, 17, 16, 15, 14, 13, 12, 11, 10, 9, 8, 7, 6, 5, 4, 3, 2, 1, 0], [(161, 155),
   (180, 159), (179, 177), (169, 179), (178, 5), (173, 175), (175, 173), (174, 4), (56, 171), (171, 56),
   (170, 3), (165, 167), (167, 165), (166, 4), (68, 163), (163, 68), (162, 3), (158, 6), (155, 130), (130,
   155), (151, 157), (157, 151), (154, 7), (0, 153), (125, 152), (153, 0), (150, 8), (149, 128), (148,
   146), (138, 148), (147, 5), (142, 144), (144, 142), (143, 4), (44, 140), (140, 44), (139, 3), (134,
   136), (136, 134), (135, 4), (68, 132), (132, 68), (131, 3), (127, 6), (91, 124), (0, 125), (126, 0),
   (123, 7), (122, 89), (121, 119), (99, 121), (120, 5), (115, 117), (117, 115), (116, 4), (111, 113),
   (113, 111), (112, 3), (106, 110), (109, 15), (108, 2), (102, 106), (105, 15), (104, 2), (31, 102),
   (101, 16), (100, 2), (95, 97), (97, 95), (96, 4), (56, 93), (93, 56), (92, 3), (88, 6), (81, 12), (12,
   81), (85, 83), (83, 85), (84, 8), (80, 7), (79, 10), (78, 76), (64, 78), (77, 5), (72, 74), (74, 72),
   (73, 4), (68, 70), (70, 68), (69, 3), (51, 67), (66, 16), (65, 2), (60, 62), (62, 60), (61, 4), (47,
   59), (58, 56), (57, 3), (51, 55), (54, 15), (53, 2), (35, 51), (50, 16), (49, 2), (44, 46), (46, 44),
   (45, 3), (39, 43), (42, 16), (41, 2), (35, 39), (38, 15), (37, 2), (31, 35), (34, 15), (33, 2), (27,
   31), (30, 15), (29, 2), (23, 27), (26, 15), (25, 2), (19, 23), (22, 16), (21, 2), (16, 18), (18, 16),
   (17, 2), (14, 1), (13, 1), (9, 6)], [(179, 180), (178, 179), (176, 177), (175, 176), (174, 175), (172,
   173), (171, 172), (170, 171), (168, 169), (167, 168), (166, 167), (164, 165), (163, 164), (162, 163),
   (160, 161), (159, 160), (158, 159), (156, 157), (155, 156), (154, 155), (152, 153), (151, 152), (150,
   151), (148, 149), (147, 148), (145, 146), (144, 145), (143, 144), (141, 142), (140, 141), (139, 140),
   (137, 138), (136, 137), (135, 136), (133, 134), (132, 133), (131, 132), (129, 130), (128, 129), (127,
   128), (125, 126), (124, 125), (123, 124), (121, 122), (120, 121), (118, 119), (117, 118), (116, 117),
   (114, 115), (113, 114), (112, 113), (110, 111), (109, 110), (108, 109), (106, 107), (105, 106), (104,
   105), (102, 103), (101, 102), (100, 101), (98, 99), (97, 98), (96, 97), (94, 95), (93, 94), (92, 93),
   (90, 91), (89, 90), (88, 89), (86, 87), (85, 86), (84, 85), (82, 83), (81, 82), (80, 81), (78, 79),
   (77, 78), (75, 76), (74, 75), (73, 74), (71, 72), (70, 71), (69, 70), (67, 68), (66, 67), (65, 66),
   (63, 64), (62, 63), (61, 62), (59, 60), (58, 59), (57, 58), (55, 56), (54, 55), (53, 54), (51, 52),
   (50, 51), (49, 50), (47, 48), (46, 47), (45, 46), (43, 44), (42, 43), (41, 42), (39, 40), (38, 39),
   (37, 38), (35, 36), (34, 35), (33, 34), (31, 32), (30, 31), (29, 30), (27, 28), (26, 27), (25, 26),
   (23, 24), (22, 23), (21, 22), (19, 20), (18, 19), (17, 18), (14, 16), (13, 15), (11, 12), (10, 11), (9,
   10), (7, 8), (6, 7), (5, 6), (4, 5), (3, 4), (2, 3), (1, 2)]⟩, ⟨true, ⟨false, 13, 15, true⟩, ⟨true, 14,
   16, true⟩⟩⟩, [⟨⟨9, 10, 11, 12⟩, [97, 98], [99], some 0⟩, ⟨⟨88, 89, 90, 91⟩, [98], [100], none⟩, ⟨⟨127, 128,
   129, 130⟩, [99], [97], some 2⟩, ⟨⟨158, 159, 160, 161⟩, [99], [98], some 2⟩]⟩

theorem after_es : after cfgA fuel es = stA := by decide +kernel
theorem after_esB : after cfgB fuel esB = stB := by decide +kernel

end Semnet.Sample
